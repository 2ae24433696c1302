import Verif.Model.PySession
/-
Rebinding attributes: `x.data = a`, `x.shape = (3, 4)`, … in a session (Model/PySession).

`shape`, `indptr`, `indices`, `row`, `col` and `data` are plain attributes of the instance: the classes define neither
`__slots__` nor properties or `__setattr__` for them (base.py 28–31; csr.py 65–83, csc.py 62–75, coo.py 62–75, coond.py
98–107).  An assignment replaces the reference and nothing else: nothing is validated, and the native copy `_handle`
(csr.py 76–83, csc.py 67–75, coo.py 67–75) stays the one made in the constructor.

Simplifications: those of Model/PySession; the new value is an array of the session of the type the constructor would
have made, or a shape with as many lengths as before (`ndim`, base.py 30, would stay behind otherwise); `_handle`, `ndim`
and `dtype` are not assigned to.
-/
namespace Lacuna
variable {V : Type}

/-- An attribute and its new value: `x.shape = l`, `x.indptr = a`, … -/
inductive Attr
  | shape (l : List Int)
  | indptr (a : Nat)
  | indices (a : Nat)
  | row (a : Nat)
  | col (a : Nat)
  | data (a : Nat)

/-- The object after the assignment (base.py 29, csr.py 67–69, csc.py 64–66, coo.py 64–66, coond.py 100–101: these
attributes are read wherever a method looks at `self.data` etc.).  Assigning an attribute that no method of the class
reads (`row` of a `CSR`) changes nothing. -/
def RefObj.rebind (o : RefObj V) (w : Attr) : RefObj V :=
  match o, w with
  | .mat f _ _ p i d h, .shape [r, c] => .mat f r c p i d h
  | .mat f r c _ i d h, .indptr a => .mat f r c a i d h
  | .mat f r c p _ d h, .indices a => .mat f r c p a d h
  | .mat f r c p i _ h, .data a => .mat f r c p i a h
  | .coo _ _ i j d h, .shape [r, c] => .coo r c i j d h
  | .coo r c _ j d h, .row a => .coo r c a j d h
  | .coo r c i _ d h, .col a => .coo r c i a d h
  | .coo r c i j _ h, .data a => .coo r c i j a h
  | .nd sh i d, .shape l => .nd (if l.length = sh.length then l else sh) i d
  | .nd sh _ d, .indices a => .nd sh a d
  | .nd sh i _, .data a => .nd sh i a
  | o, _ => o

/-- The state after it. -/
def Sess.rebind (s : Sess V) (x : Nat) (w : Attr) : Sess V := { s with objs := s.objs.modify x (·.rebind w) }

/-- The arrays of the session that an assignment mentions exist. -/
def Attr.Defined (s : Sess V) : Attr → Prop
  | .shape _ => True
  | .data a => a < s.floats.length
  | .indptr a | .indices a | .row a | .col a => a < s.ints.length

/-- A statement of Model/PySession or an assignment to an attribute of the object `x`. -/
inductive Cmd (V : Type)
  | run (st : Stmt V)
  | rebind (x : Nat) (w : Attr)

section
variable [Zero V] [One V] [Add V] [Sub V] [Mul V] [Div V] [Neg V] [BEq V] [NatCast V] [HasFinite V]
  [HasFloor V] [HasPowf V] [HasAbs V] [HasLt V] [HasNan V]

/-- The outcomes. -/
def Sess.Do (env : PyEnv V) (s : Sess V) (c : Cmd V) (out : PyRes (Sess V)) : Prop :=
  match c with
  | .run st => s.Step env st out
  | .rebind x w => x < s.objs.length ∧ w.Defined s ∧ out = .ret (s.rebind x w)

/-- The states that a session with assignments to attributes reaches (cf. `Sess.Reach`). -/
inductive Sess.Visits (envs : PyEnv V → Prop) (ok : Sess V → Cmd V → Prop) : Sess V → Prop
  | start : Visits envs ok Sess.start
  | step {env : PyEnv V} {s s' : Sess V} {c : Cmd V} : Visits envs ok s → envs env → ok s c → s.Do env c (.ret s') →
      Visits envs ok s'

end
end Lacuna
