"""Compares Model/F64 with the floating-point numbers of this machine.

    python3 f64_cases.py DIR          writes DIR/f64t.lean and DIR/f64t.exp
    cd lean && lake env lean DIR/f64t.lean | diff - DIR/f64t.exp
"""
import random, struct, math, sys
from fractions import Fraction
random.seed(7)
def rd():
    k=random.random()
    if k<.08: return random.choice([0.0,-0.0,float('inf'),-float('inf'),float('nan')])
    if k<.3: return float(random.randint(-20,20))*random.choice([1,.1,.5,1/3])
    if k<.5: return struct.unpack('<d',struct.pack('<Q',random.getrandbits(64)))[0]
    if k<.6: return random.choice([5e-324,2.2250738585072014e-308,1.7976931348623157e308,-1.7976931348623157e308,4.9e-320,1e-310])*random.choice([1,-1])
    if k<.7:
        return random.uniform(-1,1)*2.0**random.choice([-1022,-1040,-540,-512,511,1000])
    return random.uniform(-10,10)
def enc(x):
    if math.isnan(x): return "nan"
    if math.isinf(x): return "-inf" if x<0 else "inf"
    if x==0: return "-0" if math.copysign(1,x)<0 else "0"
    f=Fraction(x); return f"{f.numerator}/{f.denominator}"
def lit(x):
    if math.isnan(x): return ".nan"
    if math.isinf(x): return ".inf "+("true" if x<0 else "false")
    if x==0: return ".zero "+("true" if math.copysign(1,x)<0 else "false")
    f=Fraction(x); return f"F64.ofRat (({f.numerator} : ℚ) / {f.denominator})"
def div(x,y):
    try: return x/y
    except ZeroDivisionError:
        if x==0 or math.isnan(x): return float('nan')
        return math.copysign(float('inf'),x)*math.copysign(1,y)
def mul(x,y): return x*y
def fl(x):
    if math.isnan(x) or math.isinf(x) or x==0: return x
    return float(math.floor(x))
def sq(x):
    if x<0: return float('nan')
    return math.sqrt(x)
def b(v): return "T" if v else "F"
try:
    math.fma; fma=math.fma
except AttributeError:
    import ctypes
    lm=ctypes.CDLL("libm.so.6"); lm.fma.restype=ctypes.c_double; lm.fma.argtypes=[ctypes.c_double]*3
    fma=lm.fma
out=[];exp=[]
for i in range(400):
    x,y,z=rd(),rd(),rd()
    if i%7==0: y=-x
    if i%11==0: y=x
    if i%13==0 and math.isfinite(x*y): z=-(x*y)
    out.append(f"  t ({lit(x)}) ({lit(y)}) ({lit(z)}),")
    exp.append("|".join([enc(x+y),enc(x-y),enc(x*y),enc(div(x,y)),enc(fma(x,y,z)),enc(-x),enc(abs(x)),enc(fl(x)),enc(sq(x)),b(x==y),b(x<y)]))
src='''import Verif.Model.F64
open Lacuna
def enc : F64 → String
 | .nan => "nan" | .inf s => if s then "-inf" else "inf" | .zero s => if s then "-0" else "0"
 | .num x => toString x.1.num ++ "/" ++ toString x.1.den
def b (x : Bool) := if x then "T" else "F"
def t (x y z : F64) : String := "|".intercalate [enc (x+y), enc (x-y), enc (x*y), enc (x/y), enc (mulAdd x y z), enc (-x), enc (fabs x), enc (HasFloor.floor x), enc (HasSqrt.fsqrt x), b (x==y), b (flt x y)]
def l : List String := [
'''+"\n".join(out).rstrip(",")+''']
def main : IO Unit := for s in l do IO.println s
#eval main
'''
open(sys.argv[1]+'/f64t.lean','w').write(src)
open(sys.argv[1]+'/f64t.exp','w').write("\n".join(exp)+"\n")
