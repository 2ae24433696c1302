import Verif.Spec.PyOper
import Verif.Props.PyProg
/-
C83: operator syntax on sparse objects: what each operator does, how it differs from the function of
the same name, and every expression of operators and functions.
-/
set_option linter.unusedSectionVars false

namespace Lacuna
variable {V : Type}
variable [Zero V] [One V] [Add V] [Sub V] [Mul V] [Div V] [Neg V] [BEq V] [NatCast V] [HasFinite V]
  [HasFloor V] [HasPowf V] [HasAbs V] [HasLt V] [HasNan V]

/-! ### one operator -/

/-- The classes of two objects allow `x op y`: a sum or difference of two `CSR` or two `CSC`. -/
def OperOk (op : BinOp) (v w : SpVal V) : Prop :=
  (op = .add ∨ op = .sub) ∧ ∃ f a b, v = .mat f a ∧ w = .mat f b

theorem mulSpecial_obj (v : SpVal V) (y : PyObj V) (out : Special V) :
    MulSpecial v.obj (.obj y) out ↔ out = (match v with | .nd _ => none | _ => some (.raises .typeError)) := by
  cases v with
  | mat f a => cases f <;> rfl
  | coo a => rfl
  | nd a => rfl

/-- A product, quotient, remainder or power of two sparse objects with operator syntax raises
`TypeError`, whatever the classes and the shapes. -/
theorem operator_obj_error (env : PyEnv V) {op : BinOp} (v w : SpVal V) (h : ¬ OperOk op v w) (out : PyRes (PyObj V)) :
    Operator env op v.obj (.obj w.obj) out ↔ out = .raises .typeError := by
  have hadd : ∀ (op : BinOp), (op = .add ∨ op = .sub) → ¬ OperOk op v w → ∀ r, LeftSpecial env op v.obj (.obj w.obj) r ↔ r = none := by
    intro op hop hn r
    rcases hop with rfl | rfl
    all_goals
      cases v with
      | mat f a =>
        cases w with
        | mat g b =>
          have hfg : f ≠ g := by rintro rfl; exact hn ⟨by simp, f, a, b, rfl, rfl⟩
          unfold LeftSpecial SpVal.obj
          simp only [if_neg hfg]
        | coo b => rfl
        | nd b => rfl
      | coo a => rfl
      | nd a => rfl
  have hdiv : ∀ (op : BinOp) (r : Special V), DivSpecial op v.obj (.obj w.obj) r ↔ r = some (.raises .typeError) := fun _ _ => Iff.rfl
  unfold Operator
  have fin : ∀ (op : BinOp), op ≠ .mul → ((if v.obj.sameClass w.obj then out = .raises .typeError
      else ∃ r', RightSpecial op w.obj (.obj v.obj) r' ∧ out = r'.getD (.raises .typeError)) ↔ out = .raises .typeError) := by
    intro op hop
    split
    · rfl
    · have hr : ∀ r, RightSpecial op w.obj (.obj v.obj) r ↔ r = none := by
        intro r; cases op <;> first | rfl | exact absurd rfl hop
      simp only [hr, exists_eq_left, Option.getD_none]
  cases op with
  | add =>
    simp only [hadd .add (.inl rfl) h, exists_eq_left]
    exact fin .add (by decide)
  | sub =>
    simp only [hadd .sub (.inr rfl) h, exists_eq_left]
    exact fin .sub (by decide)
  | mul =>
    have hL : ∀ r, LeftSpecial env .mul v.obj (.obj w.obj) r ↔ _ := fun r => mulSpecial_obj v w.obj r
    simp only [hL, exists_eq_left]
    cases v with
    | mat f a => rfl
    | coo a => rfl
    | nd a =>
      cases w with
      | nd b => simp [SpVal.obj, PyObj.sameClass]
      | mat g b =>
        have hR : ∀ r, RightSpecial .mul (SpVal.mat g b).obj (.obj (SpVal.nd a).obj) r ↔ _ := fun r => mulSpecial_obj (.mat g b) (SpVal.nd a).obj r
        simp only [hR, exists_eq_left]
        simp [SpVal.obj, PyObj.sameClass]
      | coo b =>
        have hR : ∀ r, RightSpecial .mul (SpVal.coo b).obj (.obj (SpVal.nd a).obj) r ↔ _ := fun r => mulSpecial_obj (.coo b) (SpVal.nd a).obj r
        simp only [hR, exists_eq_left]
        simp [SpVal.obj, PyObj.sameClass]
  | div =>
    unfold LeftSpecial
    simp only [hdiv]
    cases hnd : v.obj.isNd with
    | true =>
      simp only [if_true, exists_eq_left]
      exact fin .div (by decide)
    | false => simp
  | floordiv => unfold LeftSpecial; simp only [hdiv, exists_eq_left]
  | rem => unfold LeftSpecial; simp only [hdiv, exists_eq_left]
  | pow => unfold LeftSpecial; simp only [hdiv, exists_eq_left]

/-- A sum or difference of two matrices of one class is the function of the array API. -/
theorem operator_obj_ok (env : PyEnv V) {op : BinOp} {v w : SpVal V} (h : OperOk op v w) (out : PyRes (PyObj V)) :
    Operator env op v.obj (.obj w.obj) out ↔ BinObj env op v.obj w.obj out := by
  obtain ⟨hop, f, a, b, rfl, rfl⟩ := h
  rcases hop with rfl | rfl
  all_goals
    unfold Operator LeftSpecial BinObj SpVal.obj
    simp only [if_true]
    constructor
    · rintro ⟨r, ⟨o, ho, rfl⟩, h⟩
      exact ⟨o, ho, h⟩
    · rintro ⟨o, ho, h⟩
      exact ⟨_, ⟨o, ho, rfl⟩, h⟩

theorem operator_of_left {env : PyEnv V} {op : BinOp} {x : PyObj V} {y : Operand V} {P : PyRes (PyObj V) → Prop}
    (h : ∀ r, LeftSpecial env op x y r ↔ ∃ o, P o ∧ r = some o) (out : PyRes (PyObj V)) : Operator env op x y out ↔ P out := by
  unfold Operator
  simp only [h]
  constructor
  · rintro ⟨_, ⟨o, ho, rfl⟩, h⟩
    have : out = o := h
    exact this ▸ ho
  · intro h; exact ⟨_, ⟨out, h, rfl⟩, rfl⟩

theorem mulSpecial_num (v : SpVal V) (y : Operand V) {alpha : V} (hy : y.float = .ok alpha) (out : Special V)
    (hv : v.obj.isNd = false) :
    MulSpecial v.obj y out ↔ ∃ o, DataMethod (.mul alpha) v.obj o ∧ out = some o := by
  cases v with
  | mat f a =>
    cases f <;> (unfold MulSpecial SpVal.obj; simp only [hy]) <;> rfl
  | coo a => unfold MulSpecial SpVal.obj; simp only [hy]; rfl
  | nd a => cases hv

/-- `x op y` with a number or with a string that `float` accepts, where the class has the operator: the
function of the array API with that number. -/
theorem operator_num_ok (env : PyEnv V) {op : BinOp} (v : SpVal V) {y : Operand V} {alpha : V} (hy : y.float = .ok alpha)
    (hop : op ≠ .add ∧ op ≠ .sub) (hnd : v.obj.isNd = true → op ≠ .mul ∧ op ≠ .div) (out : PyRes (PyObj V)) :
    Operator env op v.obj y out ↔ ScalarMethod op v.obj alpha out := by
  have hz : ∀ (M : PyRes (PyObj V) → Prop) (r : Special V),
      (if alpha == 0 then r = some (.raises .zeroDivision) else ∃ o, M o ∧ r = some o) ↔
        ∃ o, (if alpha == 0 then o = .raises .zeroDivision else M o) ∧ r = some o := by
    intro M r
    by_cases h0 : (alpha == 0) = true
    · simp [h0]
    · simp [h0]
  revert out
  cases op with
  | add => exact absurd rfl hop.1
  | sub => exact absurd rfl hop.2
  | mul =>
    have hn : v.obj.isNd = false := by
      cases h : v.obj.isNd with
      | false => rfl
      | true => exact absurd rfl (hnd h).1
    refine operator_of_left fun r => ?_
    unfold LeftSpecial ScalarMethod
    simp only [mulSpecial_num v y hy _ hn, hn, Bool.false_eq_true, if_false]
  | div =>
    have hn : v.obj.isNd = false := by
      cases h : v.obj.isNd with
      | false => rfl
      | true => exact absurd rfl (hnd h).2
    refine operator_of_left fun r => ?_
    unfold LeftSpecial DivSpecial ScalarMethod
    simp only [hn, hy, mulSpecial_num v (.num (1 / alpha)) rfl _ hn, Bool.false_eq_true, if_false, hz]
  | floordiv =>
    refine operator_of_left fun r => ?_
    unfold LeftSpecial DivSpecial ScalarMethod
    simp only [hy, hz]
  | rem =>
    refine operator_of_left fun r => ?_
    unfold LeftSpecial DivSpecial ScalarMethod
    simp only [hy, hz]
  | pow =>
    refine operator_of_left fun r => ?_
    unfold LeftSpecial DivSpecial ScalarMethod
    simp only [hy]

/-- Where the class has no such operator, a number or a string raises `TypeError`. -/
theorem operator_num_missing (env : PyEnv V) {op : BinOp} (v : SpVal V) {y : Operand V} (hy : ∀ w, y ≠ .obj w)
    (hop : (op = .add ∨ op = .sub) ∨ v.obj.isNd = true ∧ (op = .mul ∨ op = .div)) (out : PyRes (PyObj V)) :
    Operator env op v.obj y out ↔ out = .raises .typeError := by
  have hL : ∀ r, LeftSpecial env op v.obj y r ↔ r = none := by
    intro r
    rcases hop with (rfl | rfl) | ⟨hn, rfl | rfl⟩
    · cases y with
      | obj w => exact absurd rfl (hy w)
      | num a => cases v <;> rfl
      | str a => cases v <;> rfl
    · cases y with
      | obj w => exact absurd rfl (hy w)
      | num a => cases v <;> rfl
      | str a => cases v <;> rfl
    · cases v with
      | nd a => rfl
      | mat f a => cases hn
      | coo a => cases hn
    · cases v with
      | nd a => rfl
      | mat f a => cases hn
      | coo a => cases hn
  unfold Operator
  simp only [hL, exists_eq_left]

/-- Where the class has the operator, a string without a number raises `ValueError`. -/
theorem operator_str_bad (env : PyEnv V) {op : BinOp} (v : SpVal V)
    (hop : op ≠ .add ∧ op ≠ .sub) (hnd : v.obj.isNd = true → op ≠ .mul ∧ op ≠ .div) (out : PyRes (PyObj V)) :
    Operator env op v.obj (.str none) out ↔ out = .raises .valueError := by
  have hL : ∀ r, LeftSpecial env op v.obj (.str none) r ↔ r = some (.raises .valueError) := by
    intro r
    cases v with
    | nd a =>
      have := hnd rfl
      cases op <;> first | rfl | exact absurd rfl hop.1 | exact absurd rfl hop.2 | exact absurd rfl this.1 | exact absurd rfl this.2
    | coo a => cases op <;> first | rfl | exact absurd rfl hop.1 | exact absurd rfl hop.2
    | mat f a => cases f <;> cases op <;> first | rfl | exact absurd rfl hop.1 | exact absurd rfl hop.2
  unfold Operator
  simp only [hL, exists_eq_left]

/-- `alpha op x`. -/
theorem left_operator (op : BinOp) (alpha : V) (v : SpVal V) (out : PyRes (PyObj V)) :
    LeftOperator op alpha v.obj out ↔
      if op = .mul ∧ v.obj.isNd = false then ScalarLeft .mul alpha v.obj out else out = .raises .typeError := by
  unfold LeftOperator
  by_cases h : op = .mul ∧ v.obj.isNd = false
  · rw [if_pos h]
    obtain ⟨rfl, hn⟩ := h
    unfold RightSpecial ScalarLeft
    simp only [mulSpecial_num v (.num alpha) rfl _ hn, hn, Bool.false_eq_true, if_false]
    constructor
    · rintro ⟨_, ⟨o, ho, rfl⟩, rfl⟩; exact ho
    · intro ho; exact ⟨_, ⟨_, ho, rfl⟩, rfl⟩
  · rw [if_neg h]
    have hR : ∀ r, RightSpecial op v.obj (.num alpha) r ↔ r = none := by
      intro r
      cases op with
      | mul =>
        cases v with
        | nd a => rfl
        | mat f a => exact absurd ⟨rfl, rfl⟩ h
        | coo a => exact absurd ⟨rfl, rfl⟩ h
      | _ => rfl
    simp only [hR, exists_eq_left, Option.getD_none]

/-! ### expressions -/

/-- What an expression does, compared with the program that calls the functions. -/
def Term.Meets (env : PyEnv V) (t : Term V) : Prop :=
  match t.check with
  | .ok τ => t.calls.check = .ok τ ∧ ∀ out, t.Eval env out ↔ t.calls.Eval env out
  | .error x => ∀ out, t.Eval env out ↔ out = .raises x

theorem Prog.returns {env : PyEnv V} (he : env.Ok) {e : Prog V} (hl : e.LitsOk) (hs : e.Small) {τ : Ty}
    (hc : e.check = .ok τ) : ∃ v : SpVal V, v.ty = τ ∧ ∀ out, e.Eval env out ↔ out = .ret v.obj := by
  obtain ⟨h1, h2⟩ := Prog.step he hl hs
  rw [hc] at h1
  obtain ⟨w, e1, -, ht, -⟩ := h1
  refine ⟨w, ht, fun out => ?_⟩
  rw [h2, e1]; rfl

theorem Prog.raises {env : PyEnv V} (he : env.Ok) {e : Prog V} (hl : e.LitsOk) (hs : e.Small) {x : PyErr}
    (hc : e.check = .error x) (out : PyRes (PyObj V)) : e.Eval env out ↔ out = .raises x := by
  obtain ⟨h1, h2⟩ := Prog.step he hl hs
  rw [hc] at h1
  rw [h2, show e.value env = .error x from h1]; rfl

/-- A function of one operand. -/
theorem Term.Meets.call {env : PyEnv V} (he : env.Ok) {a t : Term V} (ih : a.Meets env) {g : Ty → Except PyErr Ty}
    {M : PyObj V → PyRes (PyObj V) → Prop} (hl : t.calls.LitsOk) (hs : t.calls.Small)
    (hE : ∀ out, t.Eval env out ↔ ∃ oa, a.Eval env oa ∧ oa.Then M out)
    (hC : ∀ out, t.calls.Eval env out ↔ ∃ oa, a.calls.Eval env oa ∧ oa.Then M out)
    (hc : t.check = a.check.bind g) (hcc : t.calls.check = a.calls.check.bind g) : t.Meets env := by
  unfold Term.Meets at ih ⊢
  rw [hc]
  cases ha : a.check with
  | error x =>
    rw [ha] at ih
    intro out
    rw [hE]
    simp only [ih, exists_eq_left]
    rfl
  | ok τ =>
    rw [ha] at ih
    have hEC : ∀ out, t.Eval env out ↔ t.calls.Eval env out := by
      intro out; rw [hE, hC]; simp only [ih.2]
    rw [ih.1] at hcc
    show match g τ with | .ok τ => _ | .error x => _
    change t.calls.check = g τ at hcc
    cases hg : g τ with
    | ok σ => exact ⟨hcc.trans hg, hEC⟩
    | error x =>
      intro out
      rw [hEC]
      exact Prog.raises he hl hs (hcc.trans hg) out

/-- An operator with one sparse operand. -/
theorem Term.Meets.oper1 {env : PyEnv V} (he : env.Ok) {a t : Term V} (ih : a.Meets env) {g g' : Ty → Except PyErr Ty}
    {M M' : PyObj V → PyRes (PyObj V) → Prop} (hl : a.calls.LitsOk) (hs : a.calls.Small)
    (hE : ∀ out, t.Eval env out ↔ ∃ oa, a.Eval env oa ∧ oa.Then M out)
    (hC : ∀ out, t.calls.Eval env out ↔ ∃ oa, a.calls.Eval env oa ∧ oa.Then M' out)
    (hc : t.check = a.check.bind g) (hcc : t.calls.check = a.calls.check.bind g')
    (h : ∀ v : SpVal V, match g v.ty with
      | .ok τ => g' v.ty = .ok τ ∧ ∀ out, M v.obj out ↔ M' v.obj out
      | .error x => ∀ out, M v.obj out ↔ out = .raises x) : t.Meets env := by
  unfold Term.Meets at ih ⊢
  rw [hc]
  cases ha : a.check with
  | error x =>
    rw [ha] at ih
    intro out
    rw [hE]
    simp only [ih, exists_eq_left]
    rfl
  | ok τ =>
    rw [ha] at ih
    obtain ⟨v, rfl, hv⟩ := Prog.returns he hl hs ih.1
    have hE' : ∀ out, t.Eval env out ↔ M v.obj out := by
      intro out; rw [hE]; simp only [ih.2, hv, exists_eq_left]; rfl
    have hC' : ∀ out, t.calls.Eval env out ↔ M' v.obj out := by
      intro out; rw [hC]; simp only [hv, exists_eq_left]; rfl
    rw [ih.1] at hcc
    show match g v.ty with | .ok τ => _ | .error x => _
    change t.calls.check = g' v.ty at hcc
    have := h v
    cases hg : g v.ty with
    | ok σ =>
      rw [hg] at this
      refine ⟨hcc.trans this.1, fun out => ?_⟩
      rw [hE', hC', this.2]
    | error x =>
      rw [hg] at this
      intro out
      rw [hE', this]

theorem oper_ty (env : PyEnv V) (op : BinOp) (v w : SpVal V)
    (hb : ∀ x, Ty.bin op v.ty w.ty = .error x → ∀ out, BinObj env op v.obj w.obj out ↔ out = .raises x) :
    match Ty.oper op v.ty w.ty with
    | .ok τ => Ty.bin op v.ty w.ty = .ok τ ∧ ∀ out, Operator env op v.obj (.obj w.obj) out ↔ BinObj env op v.obj w.obj out
    | .error x => ∀ out, Operator env op v.obj (.obj w.obj) out ↔ out = .raises x := by
  by_cases h : OperOk op v w
  · obtain ⟨hop, f, a, b, rfl, rfl⟩ := h
    have e1 : Ty.oper op (SpVal.mat f a).ty (SpVal.mat f b).ty = Ty.bin op (SpVal.mat f a).ty (SpVal.mat f b).ty := by
      rcases hop with rfl | rfl <;> simp [Ty.oper, Ty.bin, SpVal.ty]
    rw [e1]
    have hok := operator_obj_ok env (op := op) (v := .mat f a) (w := .mat f b) ⟨hop, f, a, b, rfl, rfl⟩
    cases hc : Ty.bin op (SpVal.mat f a).ty (SpVal.mat f b).ty with
    | ok τ => exact ⟨rfl, hok⟩
    | error x =>
      intro out
      rw [hok]
      exact hb x hc out
  · have e1 : Ty.oper op v.ty w.ty = .error .typeError := by
      cases v with
      | coo a => cases op <;> rfl
      | nd a => cases op <;> rfl
      | mat f a =>
        cases w with
        | coo b => cases op <;> rfl
        | nd b => cases op <;> rfl
        | mat g b =>
          cases op with
          | add =>
            have hfg : f ≠ g := by rintro rfl; exact h ⟨.inl rfl, f, a, b, rfl, rfl⟩
            unfold Ty.oper SpVal.ty; simp [hfg]
          | sub =>
            have hfg : f ≠ g := by rintro rfl; exact h ⟨.inr rfl, f, a, b, rfl, rfl⟩
            unfold Ty.oper SpVal.ty; simp [hfg]
          | _ => rfl
    rw [e1]
    exact operator_obj_error env v w h

theorem operScalar_ty (env : PyEnv V) (op : BinOp) (v : SpVal V) {y : Operand V} {alpha : V} (hy : y.float = .ok alpha) :
    match Ty.operScalar op (some (alpha == 0)) v.ty with
    | .ok τ => Ty.scalar op (alpha == 0) v.ty = .ok τ ∧ ∀ out, Operator env op v.obj y out ↔ ScalarMethod op v.obj alpha out
    | .error x => ∀ out, Operator env op v.obj y out ↔ out = .raises x := by
  have hyo : ∀ w, y ≠ .obj w := by rintro w rfl; cases hy
  have hm := fun h => operator_num_missing env (op := op) v hyo h
  have hk := fun h1 h2 => operator_num_ok env (op := op) v hy h1 h2
  cases op with
  | add => exact hm (.inl (.inl rfl))
  | sub => exact hm (.inl (.inr rfl))
  | mul =>
    cases v with
    | nd a => exact hm (.inr ⟨rfl, .inl rfl⟩)
    | mat f a => exact ⟨rfl, hk (by decide) (by rintro h; cases h)⟩
    | coo a => exact ⟨rfl, hk (by decide) (by rintro h; cases h)⟩
  | pow =>
    cases v with
    | nd a => exact ⟨rfl, hk (by decide) (fun _ => by decide)⟩
    | mat f a => exact ⟨rfl, hk (by decide) (fun _ => by decide)⟩
    | coo a => exact ⟨rfl, hk (by decide) (fun _ => by decide)⟩
  | div =>
    cases v with
    | nd a => exact hm (.inr ⟨rfl, .inr rfl⟩)
    | mat f a =>
      have := hk (by decide) (by rintro h; cases h)
      unfold ScalarMethod at this
      simp only [Ty.operScalar, Ty.scalar, SpVal.ty]
      cases hz : (alpha == 0) with
      | true => intro out; rw [this]; simp [SpVal.obj, PyObj.isNd, hz]
      | false => exact ⟨rfl, fun out => this out⟩
    | coo a =>
      have := hk (by decide) (by rintro h; cases h)
      unfold ScalarMethod at this
      simp only [Ty.operScalar, Ty.scalar, SpVal.ty]
      cases hz : (alpha == 0) with
      | true => intro out; rw [this]; simp [SpVal.obj, PyObj.isNd, hz]
      | false => exact ⟨rfl, fun out => this out⟩
  | floordiv =>
    have := hk (by decide) (fun _ => by decide)
    unfold ScalarMethod at this
    cases hz : (alpha == 0) with
    | true => cases v <;> (intro out; rw [this]; simp [hz])
    | false => cases v <;> exact ⟨rfl, fun out => this out⟩
  | rem =>
    have := hk (by decide) (fun _ => by decide)
    unfold ScalarMethod at this
    cases hz : (alpha == 0) with
    | true => cases v <;> (intro out; rw [this]; simp [hz])
    | false => cases v <;> exact ⟨rfl, fun out => this out⟩

/-- C83: an expression of operators and functions whose literals are valid and whose intermediate
results fit into memory has exactly one outcome: if the type checker accepts it, that of the program
with functions in place of the operators (which then types as well); otherwise the exception
computed from the classes. -/
theorem term_sound {env : PyEnv V} (he : env.Ok) {t : Term V} (hl : t.calls.LitsOk) (hs : t.calls.Small) :
    match t.check with
    | .ok τ => t.calls.check = .ok τ ∧ ∀ out, t.Eval env out ↔ t.calls.Eval env out
    | .error x => ∀ out, t.Eval env out ↔ out = .raises x := by
  show t.Meets env
  have hbind : ∀ (r : Except PyErr Ty), r = r.bind .ok := by intro r; cases r <;> rfl
  induction t with
  | prog e =>
    unfold Term.Meets
    cases hc : (Term.prog e).check with
    | ok τ => exact ⟨hc, fun _ => Iff.rfl⟩
    | error x => exact Prog.raises he hl hs hc
  | un op a ih => exact .call he (ih hl hs.1) hl hs (fun _ => Iff.rfl) (fun _ => Iff.rfl) (hbind _) (hbind _)
  | scalar op a alpha ih => exact .call he (ih hl hs.1) hl hs (fun _ => Iff.rfl) (fun _ => Iff.rfl) rfl rfl
  | left op alpha a ih => exact .call he (ih hl hs.1) hl hs (fun _ => Iff.rfl) (fun _ => Iff.rfl) rfl rfl
  | T a ih => exact .call he (ih hl hs.1) hl hs (fun _ => Iff.rfl) (fun _ => Iff.rfl) rfl rfl
  | prune eps a ih => exact .call he (ih hl hs.1) hl hs (fun _ => Iff.rfl) (fun _ => Iff.rfl) rfl rfl
  | elimZeros a ih => exact .call he (ih hl hs.1) hl hs (fun _ => Iff.rfl) (fun _ => Iff.rfl) rfl rfl
  | ndop op arg a ih => exact .call he (ih hl hs.1) hl hs (fun _ => Iff.rfl) (fun _ => Iff.rfl) rfl rfl
  | mode f axis a ih => exact .call he (ih hl hs.1) hl hs (fun _ => Iff.rfl) (fun _ => Iff.rfl) rfl rfl
  | minus a ih => exact .call he (ih hl hs.1) hl hs (fun _ => Iff.rfl) (fun _ => Iff.rfl) (hbind _) (hbind _)
  | plus a ih =>
    exact .oper1 he (ih hl hs) hl hs (M' := fun x out => out = .ret x) (g' := .ok) (fun _ => Iff.rfl)
      (by
        intro out
        have : ∀ o : PyRes (PyObj V), o.Then (fun x out => out = .ret x) out ↔ o = out := by
          intro o; cases o <;> exact eq_comm
        simp only [this, exists_eq_right]
        rfl)
      rfl (hbind _) (fun v => fun _ => Iff.rfl)
  | operNum op a alpha ih =>
    exact .oper1 he (ih hl hs.1) hl hs.1 (fun _ => Iff.rfl) (fun _ => Iff.rfl) rfl rfl
      (fun v => operScalar_ty env op v (y := .num alpha) rfl)
  | operStr op a s ih =>
    cases s with
    | some alpha =>
      exact .oper1 he (ih hl hs.1) hl hs.1 (fun _ => Iff.rfl) (fun _ => Iff.rfl) rfl rfl
        (fun v => operScalar_ty env op v (y := .str (some alpha)) rfl)
    | none =>
      refine .oper1 he (ih hl hs) hl hs (M' := fun x out => out = .ret x) (g' := .ok) (fun _ => Iff.rfl)
        (by
          intro out
          have : ∀ o : PyRes (PyObj V), o.Then (fun x out => out = .ret x) out ↔ o = out := by
            intro o; cases o <;> exact eq_comm
          simp only [this, exists_eq_right]
          rfl)
        rfl (hbind _) (fun v => ?_)
      have hm := fun h => operator_num_missing env (op := op) v (y := .str none) (by rintro w h; cases h) h
      have hk := fun h1 h2 => operator_str_bad env (op := op) v h1 h2
      cases op with
      | add => exact hm (.inl (.inl rfl))
      | sub => exact hm (.inl (.inr rfl))
      | mul =>
        cases v with
        | nd a => exact hm (.inr ⟨rfl, .inl rfl⟩)
        | mat f a => exact hk (by decide) (by rintro h; cases h)
        | coo a => exact hk (by decide) (by rintro h; cases h)
      | div =>
        cases v with
        | nd a => exact hm (.inr ⟨rfl, .inr rfl⟩)
        | mat f a => exact hk (by decide) (by rintro h; cases h)
        | coo a => exact hk (by decide) (by rintro h; cases h)
      | floordiv => cases v <;> exact hk (by decide) (fun _ => by decide)
      | rem => cases v <;> exact hk (by decide) (fun _ => by decide)
      | pow => cases v <;> exact hk (by decide) (fun _ => by decide)
  | numOper op alpha a ih =>
    refine .oper1 he (ih hl hs.1) hl hs.1 (fun _ => Iff.rfl) (fun _ => Iff.rfl) rfl rfl (fun v => ?_)
    have := left_operator op alpha v
    cases op with
    | mul =>
      cases v with
      | nd a => intro out; rw [this]; simp [SpVal.obj, PyObj.isNd]
      | mat f a => exact ⟨rfl, fun out => by rw [this, if_pos ⟨rfl, rfl⟩]⟩
      | coo a => exact ⟨rfl, fun out => by rw [this, if_pos ⟨rfl, rfl⟩]⟩
    | _ => cases v <;> (intro out; rw [this, if_neg (by rintro ⟨h, -⟩; cases h)])
  | bin op a b iha ihb =>
    have iha := iha hl.1 hs.1
    have ihb := ihb hl.2 hs.2.1
    have hcc : (Term.bin op a b).calls.check = a.calls.check.bind fun τ => b.calls.check.bind fun σ => Ty.bin op τ σ := rfl
    unfold Term.Meets at iha ihb ⊢
    rw [show (Term.bin op a b).check = a.check.bind fun τ => b.check.bind fun σ => Ty.bin op τ σ from rfl]
    cases ha : a.check with
    | error x =>
      rw [ha] at iha
      intro out
      show (∃ oa, a.Eval env oa ∧ _) ↔ _
      simp only [iha, exists_eq_left]
      rfl
    | ok τ =>
      rw [ha] at iha
      obtain ⟨v, rfl, hv⟩ := Prog.returns he hl.1 hs.1 iha.1
      have hE : ∀ out, (Term.bin op a b).Eval env out ↔ ∃ ob, b.Eval env ob ∧ ob.Then (fun y out => BinObj env op v.obj y out) out := by
        intro out
        show (∃ oa, a.Eval env oa ∧ _) ↔ _
        simp only [iha.2, hv, exists_eq_left]
        rfl
      cases hb : b.check with
      | error x =>
        rw [hb] at ihb
        intro out
        rw [hE]
        simp only [ihb, exists_eq_left]
        rfl
      | ok σ =>
        rw [hb] at ihb
        have hEC : ∀ out, (Term.bin op a b).Eval env out ↔ (Term.bin op a b).calls.Eval env out := by
          intro out
          show (∃ oa, a.Eval env oa ∧ _) ↔ ∃ oa, a.calls.Eval env oa ∧ _
          simp only [iha.2, ihb.2]
        rw [iha.1, ihb.1] at hcc
        change _ = Ty.bin op v.ty σ at hcc
        show match Ty.bin op v.ty σ with | .ok τ => _ | .error x => _
        cases hg : Ty.bin op v.ty σ with
        | ok ρ => exact ⟨hcc.trans hg, hEC⟩
        | error x =>
          intro out
          rw [hEC]
          exact Prog.raises he hl hs (hcc.trans hg) out
  | oper op a b iha ihb =>
    have iha := iha hl.1 hs.1
    have ihb := ihb hl.2 hs.2.1
    have hcc : (Term.oper op a b).calls.check = a.calls.check.bind fun τ => b.calls.check.bind fun σ => Ty.bin op τ σ := rfl
    unfold Term.Meets at iha ihb ⊢
    rw [show (Term.oper op a b).check = a.check.bind fun τ => b.check.bind fun σ => Ty.oper op τ σ from rfl]
    cases ha : a.check with
    | error x =>
      rw [ha] at iha
      intro out
      show (∃ oa, a.Eval env oa ∧ _) ↔ _
      simp only [iha, exists_eq_left]
      rfl
    | ok τ =>
      rw [ha] at iha
      obtain ⟨v, rfl, hv⟩ := Prog.returns he hl.1 hs.1 iha.1
      have hE : ∀ out, (Term.oper op a b).Eval env out ↔
          ∃ ob, b.Eval env ob ∧ ob.Then (fun y out => Operator env op v.obj (.obj y) out) out := by
        intro out
        show (∃ oa, a.Eval env oa ∧ _) ↔ _
        simp only [iha.2, hv, exists_eq_left]
        rfl
      cases hb : b.check with
      | error x =>
        rw [hb] at ihb
        intro out
        rw [hE]
        simp only [ihb, exists_eq_left]
        rfl
      | ok σ =>
        rw [hb] at ihb
        obtain ⟨w, rfl, hw⟩ := Prog.returns he hl.2 hs.2.1 ihb.1
        have hE' : ∀ out, (Term.oper op a b).Eval env out ↔ Operator env op v.obj (.obj w.obj) out := by
          intro out
          rw [hE]
          simp only [ihb.2, hw, exists_eq_left]
          rfl
        have hC' : ∀ out, (Term.oper op a b).calls.Eval env out ↔ BinObj env op v.obj w.obj out := by
          intro out
          show (∃ oa, a.calls.Eval env oa ∧ _) ↔ _
          simp only [hv, exists_eq_left]
          show (∃ ob, b.calls.Eval env ob ∧ _) ↔ _
          simp only [hw, exists_eq_left]
          rfl
        rw [iha.1, ihb.1] at hcc
        change _ = Ty.bin op v.ty w.ty at hcc
        have key := oper_ty env op v w (by
          intro x hx out
          rw [← hC']
          exact Prog.raises he hl hs (hcc.trans hx) out)
        show match Ty.oper op v.ty w.ty with | .ok τ => _ | .error x => _
        cases hg : Ty.oper op v.ty w.ty with
        | ok ρ =>
          rw [hg] at key
          refine ⟨hcc.trans key.1, fun out => ?_⟩
          rw [hE', hC', key.2]
        | error x =>
          rw [hg] at key
          intro out
          rw [hE', key]

/-- An expression that types returns an object of the computed class and shape that satisfies the
invariants of the class. -/
theorem term_returns {env : PyEnv V} (he : env.Ok) {t : Term V} (hl : t.calls.LitsOk) (hs : t.calls.Small) {τ : Ty}
    (hc : t.check = .ok τ) : ∃ v : SpVal V, v.Valid ∧ v.ty = τ ∧ ∀ out, t.Eval env out ↔ out = .ret v.obj := by
  have h := term_sound he hl hs
  rw [hc] at h
  obtain ⟨h1, h2⟩ := Prog.step he hl hs
  rw [h.1] at h1
  obtain ⟨w, e1, hv, ht, -⟩ := h1
  refine ⟨w, hv, ht, fun out => ?_⟩
  rw [h.2, h2, e1]; rfl

/-! ### operators and functions differ -/

/-- `multiply(a, b)`, `divide(a, b)`, `remainder(a, b)`, `floor_divide(a, b)` and `pow(a, b)` of two `CSR` or
two `CSC` matrices of one shape return a matrix, but `a * b`, `a / b`, `a % b`, `a // b` and `a ** b` raise
`TypeError`.  (The array API standard asks for the same results.) -/
theorem operator_differs {env : PyEnv V} (he : env.Ok) {op : BinOp} (hop : op ≠ .add ∧ op ≠ .sub) {a b : Prog V} {f : Fmt}
    {r c : Nat} (ha : a.check = .ok (.mat f r c)) (hb : b.check = .ok (.mat f r c))
    (hl : (Prog.bin op a b).LitsOk) (hs : (Prog.bin op a b).Small) :
    (∃ v : SpVal V, v.Valid ∧ v.ty = .mat f r c ∧ ∀ out, (Prog.bin op a b).Eval env out ↔ out = .ret v.obj) ∧
      ∀ out, (Term.oper op (.prog a) (.prog b)).Eval env out ↔ out = .raises .typeError := by
  constructor
  · have hc : (Prog.bin op a b).check = .ok (.mat f r c) := by
      show (a.check.bind fun τ => b.check.bind fun σ => Ty.bin op τ σ) = _
      rw [ha, hb]
      show Ty.bin op (.mat f r c) (.mat f r c) = _
      simp [Ty.bin]
    exact term_returns he (t := .prog (.bin op a b)) hl hs hc
  · have h := term_sound he (t := .oper op (.prog a) (.prog b)) hl hs
    have hc : (Term.oper op (.prog a) (.prog b)).check = .error .typeError := by
      show (a.check.bind fun τ => b.check.bind fun σ => Ty.oper op τ σ) = _
      rw [ha, hb]
      show Ty.oper op (.mat f r c) (.mat f r c) = _
      cases op <;> first | rfl | exact absurd rfl hop.1 | exact absurd rfl hop.2
    rw [hc] at h
    exact h

/-- `a + b` of two matrices of different classes raises `TypeError`, not the `NotImplementedError` that the
documentation of `CSR.__add__` announces (csr.py 439–444) and that `add(a, b)` raises. -/
theorem operator_mixed {env : PyEnv V} (he : env.Ok) {op : BinOp} {a b : Prog V} {f g : Fmt} (hfg : f ≠ g)
    {r c r' c' : Nat} (ha : a.check = .ok (.mat f r c)) (hb : b.check = .ok (.mat g r' c'))
    (hl : (Prog.bin op a b).LitsOk) (hs : (Prog.bin op a b).Small) :
    (∀ out, (Prog.bin op a b).Eval env out ↔ out = .raises .notImplemented) ∧
      ∀ out, (Term.oper op (.prog a) (.prog b)).Eval env out ↔ out = .raises .typeError := by
  constructor
  · refine Prog.raises he hl hs ?_
    show (a.check.bind fun τ => b.check.bind fun σ => Ty.bin op τ σ) = _
    rw [ha, hb]
    show Ty.bin op (.mat f r c) (.mat g r' c') = _
    simp [Ty.bin, hfg]
  · have h := term_sound he (t := .oper op (.prog a) (.prog b)) hl hs
    have hc : (Term.oper op (.prog a) (.prog b)).check = .error .typeError := by
      show (a.check.bind fun τ => b.check.bind fun σ => Ty.oper op τ σ) = _
      rw [ha, hb]
      show Ty.oper op (.mat f r c) (.mat g r' c') = _
      cases op <;> first | rfl | simp [Ty.oper, hfg]
    rw [hc] at h
    exact h

/-- The named methods of the matrix classes do not raise for an operand they do not know: they return
the constant `NotImplemented` (a truthy object that is no array). -/
theorem named_method_unknown (env : PyEnv V) (op : BinOp) (f : Fmt) (x : PyMat V) {y : Operand V}
    (hy : ∀ z, y ≠ .obj (.mat f z)) (out : Special V) : NamedMethod env op (.mat f x) y out ↔ out = none := by
  cases y with
  | obj w =>
    cases w with
    | mat g z =>
      have hfg : f ≠ g := by rintro rfl; exact hy z rfl
      unfold NamedMethod
      simp only [if_neg hfg]
    | coo z => rfl
    | nd z => rfl
  | num a => rfl
  | str a => rfl

/-- For an operand of the same class they are the functions. -/
theorem named_method_known (env : PyEnv V) (op : BinOp) (f : Fmt) (x y : PyMat V) (out : PyRes (PyObj V)) :
    NamedMethod env op (.mat f x) (.obj (.mat f y)) (some out) ↔ BinObj env op (.mat f x) (.mat f y) out := by
  unfold NamedMethod BinObj
  simp only [if_true, Option.some.injEq]

/-- `x * y` with a string: `CSR([0, 1], [0], [v], (1, 1)) * "a"` raises `ValueError`, and a string in which
`float` finds a number is that number. -/
theorem operator_str (env : PyEnv V) (v : SpVal V) (hn : v.obj.isNd = false) :
    (∀ out, Operator env .mul v.obj (.str none) out ↔ out = .raises .valueError) ∧
      ∀ alpha out, Operator env .mul v.obj (.str (some alpha)) out ↔ Operator env .mul v.obj (.num alpha) out := by
  have h1 : v.obj.isNd = true → BinOp.mul ≠ .mul ∧ BinOp.mul ≠ .div := by rw [hn]; intro h; cases h
  refine ⟨operator_str_bad env v (by decide) h1, fun alpha out => ?_⟩
  rw [operator_num_ok env v (y := .str (some alpha)) rfl (by decide) h1,
    operator_num_ok env v (y := .num alpha) rfl (by decide) h1]

/-- `x * y` for an object without a native copy, and for an operand that is no number: `CSC` and `COO` complain
about the missing copy whatever the operand is, `CSR` about the operand. -/
theorem operator_mul_order (env : PyEnv V) (y : Operand V) (out : PyRes (PyObj V)) :
    (∀ m : PyMat V, m.handle = none → (Operator env .mul (.mat .csc m) y out ↔ out = .raises .runtimeError)) ∧
    (∀ m : PyCoo V, m.handle = none → (Operator env .mul (.coo m) y out ↔ out = .raises .runtimeError)) ∧
    (∀ (m : PyMat V) (e : PyErr), y.float = .error e → (Operator env .mul (.mat .csr m) y out ↔ out = .raises e)) := by
  refine ⟨fun m hm => operator_of_left (x := .mat .csc m) (P := fun o => o = .raises .runtimeError) (fun r => ?_) out,
    fun m hm => operator_of_left (x := .coo m) (P := fun o => o = .raises .runtimeError) (fun r => ?_) out,
    fun m e he => operator_of_left (x := .mat .csr m) (P := fun o => o = .raises e) (fun r => ?_) out⟩
  · unfold LeftSpecial MulSpecial
    simp only [hm]
    simp
  · unfold LeftSpecial MulSpecial
    simp only [hm]
    simp
  · unfold LeftSpecial MulSpecial
    simp only [he]
    simp

/-- `CSC(…) * "a"` for arrays that the native constructor rejects. -/
example (env : PyEnv V) (v : V) (out : PyRes (PyObj V)) :
    Operator env .mul (.mat .csc ⟨1, 1, [0, 1], [0], [v], none⟩) (.str none) out ↔ out = .raises .runtimeError :=
  (operator_mul_order env _ out).1 _ rfl
example (env : PyEnv V) (v : V) (out : PyRes (PyObj V)) :
    Operator env .mul (.mat .csr ⟨1, 1, [0, 1], [0], [v], none⟩) (.str none) out ↔ out = .raises .valueError :=
  (operator_mul_order env _ out).2.2 _ _ rfl

/-! ### examples -/

/-- A 2 × 3 matrix. -/
def exOper (v w : V) : Prog V := .mat .csr 2 3 [0, 1, 2] [0, 2] [v, w]

/-- `-(2 * (a + a)) / 3`. -/
def exOperSum (v w α β : V) : Term V :=
  .operNum .div (.minus (.numOper .mul α (.oper .add (.prog (exOper v w)) (.prog (exOper v w))))) β

theorem exOper_lits (v w : V) : (exOper v w).LitsOk :=
  ⟨by show ∀ j ∈ [0, 2], j ≤ i64Max; decide, by intro h; cases h⟩

theorem exOper_check (v w : V) : (exOper v w).check = .ok (.mat .csr 2 3) := rfl

/-- The hypotheses hold: `-(2 * (a + a)) / 3` types whenever the divisor is not zero. -/
example (v w α β : V) (hβ : (β == 0) = false) :
    (exOperSum v w α β).calls.LitsOk ∧ (exOperSum v w α β).calls.Small ∧ (exOperSum v w α β).check = .ok (.mat .csr 2 3) := by
  have h2 : Ty.SizeOk 2 (.mat .csr 2 3) := by decide
  have h4 : Ty.SizeOk 4 (.mat .csr 2 3) := by decide
  refine ⟨⟨exOper_lits v w, exOper_lits v w⟩, ⟨⟨⟨⟨h2, h2, h4⟩, h4⟩, h4⟩, ?_⟩, ?_⟩
  · have : (Term.calls (exOperSum v w α β)).check = .ok (.mat .csr 2 3) := by
      show (if (β == 0) = true then (Except.error .zeroDivision : Except PyErr Ty) else .ok (.mat .csr 2 3)) = _
      rw [hβ]; rfl
    show Prog.Fits (Term.calls (exOperSum v w α β))
    unfold Prog.Fits
    rw [this]
    exact h4
  · show (if (β == 0) = true then (Except.error .zeroDivision : Except PyErr Ty) else .ok (.mat .csr 2 3)) = _
    rw [hβ]; rfl

/-- `a * a` raises `TypeError`, in any arithmetic and every execution, while `multiply(a, a)` returns. -/
example {env : PyEnv V} (he : env.Ok) (v w : V) (out : PyRes (PyObj V)) :
    (Term.oper .mul (.prog (exOper v w)) (.prog (exOper v w))).Eval env out ↔ out = .raises .typeError := by
  have h2 : Ty.SizeOk 2 (.mat .csr 2 3) := by decide
  have h4 : Ty.SizeOk 4 (.mat .csr 2 3) := by decide
  exact (operator_differs he (op := .mul) (by decide) (exOper_check v w) (exOper_check v w)
    ⟨exOper_lits v w, exOper_lits v w⟩ ⟨h2, h2, h4⟩).2 out

end Lacuna
