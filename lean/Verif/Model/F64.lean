import Verif.Lemmas.Binary64
import Verif.Model.Elementwise
import Verif.Model.Stats
/-
The `f64` of the kernels with all its values: IEEE 754 binary64 with signed zeros, infinities and NaN.
The operations are those that Rust defines by IEEE 754 (`+ - * / ==  <`, unary `-`, `f64::abs`,
`f64::floor`, `f64::sqrt`, `f64::mul_add`, `is_nan`, `is_finite` and the conversion `as f64` from an
integer), with rounding to nearest, ties to even.

Simplification: there is one NaN (Rust leaves its sign and payload unspecified, and the modelled code
does not look at them).  `f64::powf`, `f64::min`, `f64::max` are not defined here: IEEE 754 leaves the
last digit of the first and Rust the sign of a zero result of the others open.
-/
namespace Lacuna

/-- The finite binary64 numbers other than the zeros. -/
abbrev Num64 := {q : ℚ // B64.Rep q ∧ q ≠ 0}

/-- `neg` is the sign bit. -/
inductive F64 where
  | nan
  | inf (neg : Bool)
  | zero (neg : Bool)
  | num (x : Num64)
deriving DecidableEq

namespace F64

/-- The result of an operation whose exact value is `x`.  A result that underflows to zero or overflows
keeps its sign; an exact zero is `+0` (rounding to nearest). -/
def ofRat (x : ℚ) : F64 :=
  if h : rnd64 x = 0 then zero (decide (x < 0))
  else if h' : |rnd64 x| ≤ max64 then num ⟨rnd64 x, B64.rep_rnd h', h⟩
  else inf (decide (x < 0))

theorem rep_neg {q : ℚ} (h : B64.Rep q) : B64.Rep (-q) := by
  obtain ⟨⟨m, e, h1, h2, h3⟩, h4⟩ := h
  exact ⟨⟨-m, e, by rw [h1]; push_cast; ring, by rwa [abs_neg], h3⟩, by rwa [abs_neg]⟩

/-- `-x`. -/
def neg : F64 → F64
  | nan => nan
  | inf s => inf !s
  | zero s => zero !s
  | num x => num ⟨-x.1, rep_neg x.2.1, neg_ne_zero.2 x.2.2⟩

/-- The sign bit (of NaN: unspecified, never used). -/
def sign : F64 → Bool
  | nan => false
  | inf s => s
  | zero s => s
  | num x => decide (x.1 < 0)

/-- `x + y`. -/
def add : F64 → F64 → F64
  | nan, _ => nan
  | _, nan => nan
  | inf s, inf t => if s = t then inf s else nan
  | inf s, _ => inf s
  | _, inf t => inf t
  | zero s, zero t => zero (s && t)
  | zero _, num y => num y
  | num x, zero _ => num x
  | num x, num y => ofRat (x.1 + y.1)

/-- `x * y`. -/
def mul : F64 → F64 → F64
  | nan, _ => nan
  | _, nan => nan
  | inf _, zero _ => nan
  | zero _, inf _ => nan
  | inf s, y => inf (xor s y.sign)
  | x, inf t => inf (xor x.sign t)
  | zero s, y => zero (xor s y.sign)
  | x, zero t => zero (xor x.sign t)
  | num x, num y => ofRat (x.1 * y.1)

/-- `x / y`. -/
def div : F64 → F64 → F64
  | nan, _ => nan
  | _, nan => nan
  | inf _, inf _ => nan
  | zero _, zero _ => nan
  | inf s, y => inf (xor s y.sign)
  | x, inf t => zero (xor x.sign t)
  | zero s, y => zero (xor s y.sign)
  | x, zero t => inf (xor x.sign t)
  | num x, num y => ofRat (x.1 / y.1)

/-- `x.mul_add(y, z)`: the product is not rounded. -/
def fma : F64 → F64 → F64 → F64
  | num _, num _, nan => nan
  | num _, num _, inf s => inf s
  | num x, num y, zero _ => ofRat (x.1 * y.1)
  | num x, num y, num z => ofRat (x.1 * y.1 + z.1)
  | x, y, z => add (mul x y) z

/-- `x == y`. -/
def eq : F64 → F64 → Bool
  | inf s, inf t => s == t
  | zero _, zero _ => true
  | num x, num y => decide (x.1 = y.1)
  | _, _ => false

/-- `x < y`. -/
def lt : F64 → F64 → Bool
  | nan, _ => false
  | _, nan => false
  | inf s, inf t => s && !t
  | inf s, _ => s
  | _, inf t => !t
  | zero _, zero _ => false
  | zero _, num y => decide (0 < y.1)
  | num x, zero _ => decide (x.1 < 0)
  | num x, num y => decide (x.1 < y.1)

/-- `x.abs()`. -/
def abs (x : F64) : F64 := if x.sign then x.neg else x

/-- `x.floor()`. -/
def flr : F64 → F64
  | num x => ofRat ⌊x.1⌋
  | x => x

/-- The square root of a positive number, rounded: `m` is the integer part of the root in units of
`2 ^ e`. -/
def sqrtRat (x : ℚ) : ℚ :=
  let e := Int.log 2 x / 2 - 52
  let y := x / 4 ^ e
  let m := Nat.sqrt ⌊y⌋.toNat
  if y ≤ ((m : ℚ) + 1 / 2) ^ 2 then m * 2 ^ e else (m + 1) * 2 ^ e

/-- `x.sqrt()`. -/
def sqrt : F64 → F64
  | nan => nan
  | inf s => if s then nan else inf s
  | zero s => zero s
  | num x => if x.1 < 0 then nan else ofRat (sqrtRat x.1)

instance : Zero F64 := ⟨zero false⟩
instance : One F64 := ⟨ofRat 1⟩
instance : Add F64 := ⟨add⟩
instance : Neg F64 := ⟨neg⟩
instance : Sub F64 := ⟨fun x y => x + -y⟩
instance : Mul F64 := ⟨mul⟩
instance : Div F64 := ⟨div⟩
instance : BEq F64 := ⟨eq⟩
instance : NatCast F64 := ⟨fun n => ofRat n⟩
instance : HasFma F64 := ⟨fma⟩
instance : HasLt F64 := ⟨lt⟩
instance : HasAbs F64 := ⟨abs⟩
instance : HasFloor F64 := ⟨flr⟩
instance : HasSqrt F64 := ⟨sqrt⟩
instance : HasNan F64 := ⟨fun | nan => true | _ => false, nan⟩
instance : HasFinite F64 := ⟨fun | zero _ => true | num _ => true | _ => false⟩

end F64
end Lacuna
