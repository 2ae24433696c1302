import Verif.Model.TwoPass
/-
Element-wise binary kernels on CSR/CSC (crates/lacuna-kernels/src/elementwise).

A row (column) segment `(ai, av, alen)` is the list of its `(index, value)` pairs; the
moving positions `pa`, `pb` are represented by the remaining suffixes.  The outer
`while` carries fuel; `none` means that the fuel ran out, i.e. the loop had not finished.
-/
namespace Lacuna
universe u
variable {V : Type u}

/-- `f64::is_finite`. -/
class HasFinite (V : Type u) where
  isFinite : V → Bool
export HasFinite (isFinite)

/-- `f64::floor`. -/
class HasFloor (V : Type u) where
  floor : V → V

/-- `f64::powf`. -/
class HasPowf (V : Type u) where
  powf : V → V → V

/-- A row segment. -/
abbrev Row (V : Type u) := List (Int × V)

/-- `while p < len && idx[p] == j { acc = f(acc, val[p]); p += 1 }`
(add.rs 89–92, 93–96; subtract.rs 164–167; multiply.rs 437–445 ...). -/
def runAcc (f : V → V → V) (j : Int) (acc : V) : Row V → V × Row V
  | [] => (acc, [])
  | (k, x) :: rest => if k = j then runAcc f j (f acc x) rest else (acc, (k, x) :: rest)

/-- `while p < len && idx[p] == j { p += 1 }` (multiply.rs 453–457, 459–463 ...). -/
def skipRun (j : Int) : Row V → Row V
  | [] => []
  | (k, x) :: rest => if k = j then skipRun j rest else (k, x) :: rest

/-- `if p < len { idx[p] } else { i64::MAX }` (add.rs 77–86). -/
def headIdx : Row V → Int
  | [] => i64Max
  | (k, _) :: _ => k

/-- `let j = if ja <= jb { ja } else { jb }` (add.rs 87). -/
def minIdx (a b : Row V) : Int := if headIdx a ≤ headIdx b then headIdx a else headIdx b

section union
variable [Zero V] [BEq V]

/-- Outer loop of `add_row_count` (add.rs 76–100) with `fb = (+)` and of `sub_row_count`
(subtract.rs 82–106) with `fb = (-)`. -/
def unionCount [Add V] (fb : V → V → V) : Nat → Row V → Row V → Option Nat
  | _, [], [] => some 0
  | 0, _, _ => none
  | fuel + 1, a, b =>
    let j := minIdx a b
    let r1 := runAcc (· + ·) j 0 a
    let r2 := runAcc fb j r1.1 b
    (unionCount fb fuel r1.2 r2.2).map fun c => if r2.1 == 0 then c else c + 1

/-- `add_row_count` — add.rs 65–102. -/
def addRowCount [Add V] (a b : Row V) : Nat := (unionCount (· + ·) (a.length + b.length) a b).getD 0

/-- Outer loop of `add_row_fill` (add.rs 139–167). -/
def addFillLoop [Add V] : Nat → Row V → Row V → Option (Row V)
  | _, [], [] => some []
  | 0, _, _ => none
  | fuel + 1, a, b =>
    let j := minIdx a b
    let r1 := runAcc (· + ·) j 0 a
    let r2 := runAcc (· + ·) j r1.1 b
    (addFillLoop fuel r1.2 r2.2).map fun out => if r2.1 == 0 then out else (j, r2.1) :: out

/-- `add_row_fill` — add.rs 126–169. -/
def addRowFill [Add V] (a b : Row V) : Row V := (addFillLoop (a.length + b.length) a b).getD []

/-- `sub_row_count` — subtract.rs 71–108. -/
def subRowCount [Add V] [Sub V] (a b : Row V) : Nat :=
  (unionCount (· - ·) (a.length + b.length) a b).getD 0

/-- Outer loop of `sub_row_fill` (subtract.rs 145–191), with its two branches. -/
def subFillLoop [Add V] [Sub V] : Nat → Row V → Row V → Option (Row V)
  | _, [], [] => some []
  | 0, _, _ => none
  | fuel + 1, a, b =>
    let ja := headIdx a
    let jb := headIdx b
    if ja ≤ jb then
      let j := ja
      let r1 := runAcc (· + ·) j 0 a
      let r2 := if jb = j then runAcc (· - ·) j r1.1 b else (r1.1, b)
      (subFillLoop fuel r1.2 r2.2).map fun out => if r2.1 == 0 then out else (j, r2.1) :: out
    else
      let j := jb
      let r2 := runAcc (· - ·) j 0 b
      (subFillLoop fuel a r2.2).map fun out => if r2.1 == 0 then out else (j, r2.1) :: out

/-- `sub_row_fill` — subtract.rs 132–193. -/
def subRowFill [Add V] [Sub V] (a b : Row V) : Row V :=
  (subFillLoop (a.length + b.length) a b).getD []

end union

section inter
variable [Zero V] [Add V]

/-- Outer loop shared by `hadamard_row_count` (multiply.rs 433–467), `div_row_count`
(divide.rs 62–104), `floordiv_row_count`, `rem_row_count`, `pow_row_count`; `keep sa sb`
is the condition under which `cnt` is increased. -/
def interCount (keep : V → V → Bool) : Nat → Row V → Row V → Option Nat
  | _, [], _ => some 0
  | _, _ :: _, [] => some 0
  | 0, _ :: _, _ :: _ => none
  | fuel + 1, (ja, xa) :: a, (jb, xb) :: b =>
    if ja = jb then
      let r1 := runAcc (· + ·) ja 0 ((ja, xa) :: a)
      let r2 := runAcc (· + ·) ja 0 ((jb, xb) :: b)
      (interCount keep fuel r1.2 r2.2).map fun c => if keep r1.1 r2.1 then c + 1 else c
    else if ja < jb then
      interCount keep fuel (skipRun ja ((ja, xa) :: a)) ((jb, xb) :: b)
    else
      interCount keep fuel ((ja, xa) :: a) (skipRun jb ((jb, xb) :: b))

/-- Outer loop shared by the corresponding fill routines (multiply.rs 503–541,
divide.rs 138–181, ...); `cell sa sb` is the value written, if any. -/
def interFill (cell : V → V → Option V) : Nat → Row V → Row V → Option (Row V)
  | _, [], _ => some []
  | _, _ :: _, [] => some []
  | 0, _ :: _, _ :: _ => none
  | fuel + 1, (ja, xa) :: a, (jb, xb) :: b =>
    if ja = jb then
      let r1 := runAcc (· + ·) ja 0 ((ja, xa) :: a)
      let r2 := runAcc (· + ·) ja 0 ((jb, xb) :: b)
      (interFill cell fuel r1.2 r2.2).map fun out =>
        match cell r1.1 r2.1 with
        | some v => (ja, v) :: out
        | none => out
    else if ja < jb then
      interFill cell fuel (skipRun ja ((ja, xa) :: a)) ((jb, xb) :: b)
    else
      interFill cell fuel ((ja, xa) :: a) (skipRun jb ((jb, xb) :: b))

/-- multiply.rs 447–450: `let v = sa * sb; if v != 0.0 { cnt += 1 }`. -/
def hadamardKeep [Mul V] [BEq V] (sa sb : V) : Bool :=
  let v := sa * sb
  !(v == 0)
/-- multiply.rs 517–523. -/
def hadamardCell [Mul V] [BEq V] (sa sb : V) : Option V :=
  let v := sa * sb
  if !(v == 0) then some v else none

/-- divide.rs 81–86. -/
def divKeep [Div V] [BEq V] [HasFinite V] (sa sb : V) : Bool :=
  if !(sb == 0) then
    let v := sa / sb
    !(v == 0) && isFinite v
  else false
/-- divide.rs 157–164. -/
def divCell [Div V] [BEq V] [HasFinite V] (sa sb : V) : Option V :=
  if !(sb == 0) then
    let v := sa / sb
    if !(v == 0) && isFinite v then some v else none
  else none

/-- floor_divide.rs 70–75. -/
def floordivKeep [Div V] [BEq V] [HasFinite V] [HasFloor V] (sa sb : V) : Bool :=
  if !(sb == 0) then
    let v := HasFloor.floor (sa / sb)
    !(v == 0) && isFinite v
  else false
/-- floor_divide.rs 126–135. -/
def floordivCell [Div V] [BEq V] [HasFinite V] [HasFloor V] (sa sb : V) : Option V :=
  if !(sb == 0) then
    let v := HasFloor.floor (sa / sb)
    if !(v == 0) && isFinite v then some v else none
  else none

/-- remainder.rs 59–65. -/
def remKeep [Div V] [Mul V] [Sub V] [BEq V] [HasFinite V] [HasFloor V] (sa sb : V) : Bool :=
  if !(sb == 0) then
    let q := HasFloor.floor (sa / sb)
    let v := sa - sb * q
    !(v == 0) && isFinite v
  else false
/-- remainder.rs 116–126. -/
def remCell [Div V] [Mul V] [Sub V] [BEq V] [HasFinite V] [HasFloor V] (sa sb : V) : Option V :=
  if !(sb == 0) then
    let q := HasFloor.floor (sa / sb)
    let v := sa - sb * q
    if !(v == 0) && isFinite v then some v else none
  else none

/-- power.rs 59–62. -/
def powKeep [BEq V] [HasFinite V] [HasPowf V] (sa sb : V) : Bool :=
  let v := HasPowf.powf sa sb
  !(v == 0) && isFinite v
/-- power.rs 113–120. -/
def powCell [BEq V] [HasFinite V] [HasPowf V] (sa sb : V) : Option V :=
  let v := HasPowf.powf sa sb
  if !(v == 0) && isFinite v then some v else none

end inter

/-! ### Row routines with their fuel -/

/-- A counting routine run to completion. -/
def interRowCount [Zero V] [Add V] (keep : V → V → Bool) (a b : Row V) : Nat :=
  (interCount keep (a.length + b.length) a b).getD 0
/-- A filling routine run to completion. -/
def interRowFill [Zero V] [Add V] (cell : V → V → Option V) (a b : Row V) : Row V :=
  (interFill cell (a.length + b.length) a b).getD []

/-- `hadamard_row_count` — multiply.rs 422–469. -/
def hadamardRowCount [Zero V] [Add V] [Mul V] [BEq V] : Row V → Row V → Nat :=
  interRowCount hadamardKeep
/-- `hadamard_row_fill` — multiply.rs 490–543. -/
def hadamardRowFill [Zero V] [Add V] [Mul V] [BEq V] : Row V → Row V → Row V :=
  interRowFill hadamardCell
/-- `div_row_count` — divide.rs 48–106. -/
def divRowCount [Zero V] [Add V] [Div V] [BEq V] [HasFinite V] : Row V → Row V → Nat :=
  interRowCount divKeep
/-- `div_row_fill` — divide.rs 121–183. -/
def divRowFill [Zero V] [Add V] [Div V] [BEq V] [HasFinite V] : Row V → Row V → Row V :=
  interRowFill divCell
/-- `floordiv_row_count` — floor_divide.rs 44–93. -/
def floordivRowCount [Zero V] [Add V] [Div V] [BEq V] [HasFinite V] [HasFloor V] :
    Row V → Row V → Nat := interRowCount floordivKeep
/-- `floordiv_row_fill` — floor_divide.rs 98–153. -/
def floordivRowFill [Zero V] [Add V] [Div V] [BEq V] [HasFinite V] [HasFloor V] :
    Row V → Row V → Row V := interRowFill floordivCell
/-- `rem_row_count` — remainder.rs 33–83. -/
def remRowCount [Zero V] [Add V] [Div V] [Mul V] [Sub V] [BEq V] [HasFinite V] [HasFloor V] :
    Row V → Row V → Nat := interRowCount remKeep
/-- `rem_row_fill` — remainder.rs 88–144. -/
def remRowFill [Zero V] [Add V] [Div V] [Mul V] [Sub V] [BEq V] [HasFinite V] [HasFloor V] :
    Row V → Row V → Row V := interRowFill remCell
/-- `pow_row_count` — power.rs 33–80. -/
def powRowCount [Zero V] [Add V] [BEq V] [HasFinite V] [HasPowf V] : Row V → Row V → Nat :=
  interRowCount powKeep
/-- `pow_row_fill` — power.rs 85–138. -/
def powRowFill [Zero V] [Add V] [BEq V] [HasFinite V] [HasPowf V] : Row V → Row V → Row V :=
  interRowFill powCell

/-! ### Two-pass drivers -/

/-- Per-line counts (add.rs 200–220): line `i` of `a` and of `b` are cut out by the
pointers and handed to the counting routine. -/
def lineCounts (count : Row V → Row V → Nat) (a b : Comp V) : List Nat :=
  (List.range a.n).map fun i => count (a.row i) (b.row i)
/-- Per-line results of the filling routine (add.rs 235–258). -/
def lineFills (fill : Row V → Row V → Row V) (a b : Comp V) : List (Row V) :=
  (List.range a.n).map fun i => fill (a.row i) (b.row i)

/-- The two-pass driver in program order (add.rs 197–260 / 289–350 and the analogous
bodies in subtract.rs, multiply.rs, divide.rs, floor_divide.rs, remainder.rs, power.rs). -/
def binComp [Zero V] (count : Row V → Row V → Nat) (fill : Row V → Row V → Row V)
    (a b : Comp V) : Comp V :=
  twoPass a.m (lineCounts count a b) (lineFills fill a b)

/-- `*_csr_f64_i64(a, b)`: `assert_eq!` on the shapes (`none` = panic), then the driver. -/
def binCsr [Zero V] (count : Row V → Row V → Nat) (fill : Row V → Row V → Row V)
    (a b : Csr V) : Option (Csr V) :=
  if a.nrows = b.nrows ∧ a.ncols = b.ncols then
    some (binComp count fill a.comp b.comp).toCsr
  else none
/-- `*_csc_f64_i64(a, b)`. -/
def binCsc [Zero V] (count : Row V → Row V → Nat) (fill : Row V → Row V → Row V)
    (a b : Csc V) : Option (Csc V) :=
  if a.nrows = b.nrows ∧ a.ncols = b.ncols then
    some (binComp count fill a.comp b.comp).toCsc
  else none

/-- The possible results of `*_csr_f64_i64(a, b)` over all schedules of the fill pass. -/
def BinCsrRun [Zero V] (count : Row V → Row V → Nat) (fill : Row V → Row V → Row V)
    (a b : Csr V) (c : Csr V) : Prop :=
  a.nrows = b.nrows ∧ a.ncols = b.ncols ∧
    ∃ r, TwoPassRun a.comp.m (lineCounts count a.comp b.comp) (lineFills fill a.comp b.comp) r ∧
      c = r.toCsr
/-- The possible results of `*_csc_f64_i64(a, b)` over all schedules of the fill pass. -/
def BinCscRun [Zero V] (count : Row V → Row V → Nat) (fill : Row V → Row V → Row V)
    (a b : Csc V) (c : Csc V) : Prop :=
  a.nrows = b.nrows ∧ a.ncols = b.ncols ∧
    ∃ r, TwoPassRun a.comp.m (lineCounts count a.comp b.comp) (lineFills fill a.comp b.comp) r ∧
      c = r.toCsc

section named
variable [Zero V] [Add V] [BEq V]
/-- `add_csr_f64_i64` — add.rs 194–261. -/
def addCsr : Csr V → Csr V → Option (Csr V) := binCsr addRowCount addRowFill
/-- `add_csc_f64_i64` — add.rs 286–351. -/
def addCsc : Csc V → Csc V → Option (Csc V) := binCsc addRowCount addRowFill
/-- `sub_csr_f64_i64` — subtract.rs 218–285. -/
def subCsr [Sub V] : Csr V → Csr V → Option (Csr V) := binCsr subRowCount subRowFill
/-- `sub_csc_f64_i64` — subtract.rs 310–375. -/
def subCsc [Sub V] : Csc V → Csc V → Option (Csc V) := binCsc subRowCount subRowFill
/-- `hadamard_csr_f64_i64` — multiply.rs 642–710. -/
def hadamardCsr [Mul V] : Csr V → Csr V → Option (Csr V) := binCsr hadamardRowCount hadamardRowFill
/-- `hadamard_csc_f64_i64` — multiply.rs 562–628. -/
def hadamardCsc [Mul V] : Csc V → Csc V → Option (Csc V) := binCsc hadamardRowCount hadamardRowFill
variable [HasFinite V]
/-- `div_csr_f64_i64` — divide.rs 189–260. -/
def divCsr [Div V] : Csr V → Csr V → Option (Csr V) := binCsr divRowCount divRowFill
/-- `div_csc_f64_i64` — divide.rs 264–333. -/
def divCsc [Div V] : Csc V → Csc V → Option (Csc V) := binCsc divRowCount divRowFill
/-- `floordiv_csr_f64_i64` — floor_divide.rs 157–225. -/
def floordivCsr [Div V] [HasFloor V] : Csr V → Csr V → Option (Csr V) :=
  binCsr floordivRowCount floordivRowFill
/-- `floordiv_csc_f64_i64` — floor_divide.rs 228–293. -/
def floordivCsc [Div V] [HasFloor V] : Csc V → Csc V → Option (Csc V) :=
  binCsc floordivRowCount floordivRowFill
/-- `rem_csr_f64_i64` — remainder.rs 148–216. -/
def remCsr [Div V] [Mul V] [Sub V] [HasFloor V] : Csr V → Csr V → Option (Csr V) :=
  binCsr remRowCount remRowFill
/-- `rem_csc_f64_i64` — remainder.rs 219–284. -/
def remCsc [Div V] [Mul V] [Sub V] [HasFloor V] : Csc V → Csc V → Option (Csc V) :=
  binCsc remRowCount remRowFill
/-- `pow_csr_f64_i64` — power.rs 142–210. -/
def powCsr [HasPowf V] : Csr V → Csr V → Option (Csr V) := binCsr powRowCount powRowFill
/-- `pow_csc_f64_i64` — power.rs 213–278. -/
def powCsc [HasPowf V] : Csc V → Csc V → Option (Csc V) := binCsc powRowCount powRowFill
end named

end Lacuna
