import Verif.Model.PyVar
import Verif.Lemmas.PySession
import Verif.Lemmas.PyBitsProg
import Verif.Lemmas.PyMeaningNd
/-
Lemmas for Props/PyVar.
-/
set_option linter.unusedSectionVars false

namespace Lacuna
variable {V : Type}

section
variable [Zero V] [One V] [Add V] [Sub V] [Mul V] [Div V] [Neg V] [BEq V] [NatCast V] [HasFinite V]
  [HasFloor V] [HasPowf V] [HasAbs V] [HasLt V] [HasNan V]

theorem PyRes.Then.imp {α β : Type} {r : PyRes α} {k k' : α → PyRes β → Prop} {out : PyRes β} (h : r.Then k out)
    (hk : ∀ x, k x out → k' x out) : r.Then k' out := by
  cases r with
  | ret x => exact hk x h
  | _ => exact h

/-- One environment for all calls is a special case. -/
theorem Prog.EvalAny.of_eval {envs : PyEnv V → Prop} {env : PyEnv V} (h0 : envs env) {e : Prog V} {out : PyRes (PyObj V)}
    (h : e.Eval env out) : e.EvalAny envs out := by
  induction e generalizing out with
  | mat f r k ip ix d => exact h
  | coo r k row col d => exact h
  | nd s ix d => exact h
  | bin op a b iha ihb =>
    obtain ⟨oa, h1, h2⟩ := h
    refine ⟨oa, iha h1, h2.imp fun x h3 => ?_⟩
    obtain ⟨ob, h4, h5⟩ := h3
    exact ⟨ob, ihb h4, h5.imp fun y h6 => ⟨env, h0, h6⟩⟩
  | un op a ih => obtain ⟨oa, h1, h2⟩ := h; exact ⟨oa, ih h1, h2⟩
  | scalar op a α ih => obtain ⟨oa, h1, h2⟩ := h; exact ⟨oa, ih h1, h2⟩
  | left op α a ih => obtain ⟨oa, h1, h2⟩ := h; exact ⟨oa, ih h1, h2⟩
  | T a ih => obtain ⟨oa, h1, h2⟩ := h; exact ⟨oa, ih h1, h2.imp fun x h3 => ⟨env, h0, h3⟩⟩
  | prune eps a ih => obtain ⟨oa, h1, h2⟩ := h; exact ⟨oa, ih h1, h2.imp fun x h3 => ⟨env, h0, h3⟩⟩
  | elimZeros a ih => obtain ⟨oa, h1, h2⟩ := h; exact ⟨oa, ih h1, h2.imp fun x h3 => ⟨env, h0, h3⟩⟩
  | ndop op arg a ih => obtain ⟨oa, h1, h2⟩ := h; exact ⟨oa, ih h1, h2.imp fun x h3 => ⟨env, h0, h3⟩⟩
  | mode f axis a ih => obtain ⟨oa, h1, h2⟩ := h; exact ⟨oa, ih h1, h2.imp fun x h3 => ⟨env, h0, h3⟩⟩

/-- A call, on the operand as a program or as a constructor call. -/
theorem on_check {a : Prog V} {v : SpVal V} (hv : v.Good) (hc : a.check = .ok v.ty) (fn : Fn V) :
    (fn.on v.lit).check = (fn.on a).check := by
  cases fn with
  | un op => show v.lit.check = a.check; rw [lit_check hv, hc]
  | _ => show v.lit.check.bind _ = a.check.bind _; rw [lit_check hv, hc]

theorem on_bound (a : Prog V) (fn : Fn V) : (fn.on a).bound = a.bound := by cases fn <;> rfl

theorem on_lit_small {a : Prog V} {v : SpVal V} (hv : v.Good) (hc : a.check = .ok v.ty) (hn : v.nnz ≤ a.bound) {fn : Fn V}
    (hs : (fn.on a).Small) : (fn.on v.lit).Small := by
  refine on_small hv ?_
  have hf := Prog.small_fits hs
  unfold Prog.Fits at hf ⊢
  rw [on_check hv hc fn, on_bound, lit_bound]
  rw [on_bound] at hf
  cases h : (fn.on a).check with
  | error x => trivial
  | ok τ => rw [h] at hf; exact Ty.SizeOk.mono hf hn

theorem bin_lit_check {a b : Prog V} {v w : SpVal V} (hv : v.Good) (hw : w.Good) (hc : a.check = .ok v.ty)
    (hc' : b.check = .ok w.ty) (op : BinOp) : (Prog.bin op v.lit w.lit).check = (Prog.bin op a b).check := by
  show (v.lit.check.bind fun x => w.lit.check.bind fun y => Ty.bin op x y) =
    (a.check.bind fun x => b.check.bind fun y => Ty.bin op x y)
  rw [lit_check hv, hc, lit_check hw, hc']

theorem bin_lit_bound {a b : Prog V} {v w : SpVal V} (hv : v.Good) (hc : a.check = .ok v.ty)
    (hn : v.nnz ≤ a.bound) (hn' : w.nnz ≤ b.bound) (op : BinOp) :
    (Prog.bin op v.lit w.lit).bound ≤ (Prog.bin op a b).bound := by
  show (match v.lit.check with | .ok (.nd _) => max 1 v.lit.bound * max 1 w.lit.bound | _ => v.lit.bound + w.lit.bound) ≤
    (match a.check with | .ok (.nd _) => max 1 a.bound * max 1 b.bound | _ => a.bound + b.bound)
  rw [lit_check hv, hc, lit_bound, lit_bound]
  cases v with
  | nd c => exact Nat.mul_le_mul (max_le_max (le_refl _) hn) (max_le_max (le_refl _) hn')
  | mat f c => exact Nat.add_le_add hn hn'
  | coo c => exact Nat.add_le_add hn hn'

theorem bin_lit_small {a b : Prog V} {v w : SpVal V} (hv : v.Good) (hw : w.Good) (hc : a.check = .ok v.ty)
    (hc' : b.check = .ok w.ty) (hn : v.nnz ≤ a.bound) (hn' : w.nnz ≤ b.bound) {op : BinOp}
    (hs : (Prog.bin op a b).Small) : (Prog.bin op v.lit w.lit).Small := by
  refine ⟨lit_small hv, lit_small hw, ?_⟩
  have hf := Prog.small_fits hs
  unfold Prog.Fits at hf ⊢
  rw [bin_lit_check hv hw hc hc' op]
  cases h : (Prog.bin op a b).check with
  | error x => trivial
  | ok τ => rw [h] at hf; exact Ty.SizeOk.mono hf (bin_lit_bound hv hc hn hn' op)

/-- What every execution of a program satisfies. -/
def Prog.Lands (e : Prog V) (I : SpVal V → Prop) (out : PyRes (PyObj V)) : Prop :=
  match e.check with
  | .ok τ => ∃ v : SpVal V, out = .ret v.obj ∧ v.Good ∧ v.ty = τ ∧ v.nnz ≤ e.bound ∧ I v
  | .error x => out = .raises x

theorem Prog.lands_of_value {env : PyEnv V} (he : env.Ok) {e : Prog V} (hl : e.LitsOk) (hs : e.Small) {out : PyRes (PyObj V)}
    (h : e.Eval env out) {I : SpVal V → Prop} (hI : ∀ v, e.value env = .ok v → I v) : e.Lands I out := by
  have hst := Prog.step he hl hs
  have := (hst.2 out).1 h
  subst this
  unfold Prog.Lands
  cases hv : e.value env with
  | ok v =>
    obtain ⟨h1, h2, h3⟩ := hst.good hs hv
    rw [h2]
    exact ⟨v, rfl, h1, rfl, h3, hI v hv⟩
  | error x =>
    have h1 := hst.1
    cases hc : e.check with
    | error y => rw [hc] at h1; rw [show e.value env = .error y from h1] at hv; cases hv; rfl
    | ok τ => rw [hc] at h1; obtain ⟨w, h1, -⟩ := h1; rw [hv] at h1; cases h1

/-- Induction over the calls of an execution with changing environments: what holds for the literals and
is preserved by every call in an environment of `envs` holds for the result. -/
theorem Prog.any_lands {envs : PyEnv V → Prop} (hok : ∀ env, envs env → env.Ok) {env₀ : PyEnv V} (h0 : envs env₀)
    (I : Prog V → SpVal V → Prop)
    (hlit : ∀ e : Prog V, (∀ fn : Fn V, ∀ a, e ≠ fn.on a) → (∀ op a b, e ≠ .bin op a b) → e.LitsOk → e.Small →
      ∀ v, e.value env₀ = .ok v → I e v)
    (hfn : ∀ (env : PyEnv V) (fn : Fn V) (a : Prog V) (v w : SpVal V), envs env → a.LitsOk → a.Small → (fn.on a).Small →
      v.Good → a.check = .ok v.ty → (fn.on v.lit).Small → I a v → (fn.on v.lit).value env = .ok w → I (fn.on a) w)
    (hbin : ∀ (env : PyEnv V) (op : BinOp) (a b : Prog V) (v v' w : SpVal V), envs env → a.LitsOk → a.Small → b.LitsOk → b.Small →
      v.Good → a.check = .ok v.ty → v'.Good → b.check = .ok v'.ty → (Prog.bin op v.lit v'.lit).Small → I a v → I b v' →
      (Prog.bin op v.lit v'.lit).value env = .ok w → I (.bin op a b) w)
    {e : Prog V} (hl : e.LitsOk) (hs : e.Small) {out : PyRes (PyObj V)} (h : e.EvalAny envs out) : e.Lands (I e) out := by
  have main : ∀ (fn : Fn V) (a : Prog V), a.LitsOk → a.Small → (fn.on a).Small → ∀ out oa, a.Lands (I a) oa →
      oa.Then (fun x out => ∃ env, envs env ∧ fn.Call env x out) out → (fn.on a).Lands (I (fn.on a)) out := by
    intro fn a hla hsa hs out oa ha ht
    unfold Prog.Lands at ha
    cases hc : a.check with
    | error x =>
      rw [hc] at ha
      subst ha
      have hcf : (fn.on a).check = .error x := by
        cases fn with
        | un op => exact hc
        | _ => show a.check.bind _ = _; rw [hc]; rfl
      unfold Prog.Lands
      rw [hcf]
      exact ht
    | ok τ =>
      rw [hc] at ha
      obtain ⟨v, rfl, hg, rfl, hn, hI⟩ := ha
      obtain ⟨env, he, hcall⟩ := ht
      have hsm := on_lit_small hg hc hn hs
      have hE := (on_eval hg (hok env he) fn out).2 hcall
      have := Prog.lands_of_value (hok env he) (on_litsOk hg fn) hsm hE (I := I (fn.on a))
        (fun w hw => hfn env fn a v w he hla hsa hs hg hc hsm hI hw)
      unfold Prog.Lands at this ⊢
      rw [on_check hg hc fn] at this
      cases hcf : (fn.on a).check with
      | error x => rw [hcf] at this; exact this
      | ok τ =>
        rw [hcf] at this
        obtain ⟨w, h1, h2, h3, h4, h5⟩ := this
        rw [on_bound, lit_bound] at h4
        exact ⟨w, h1, h2, h3, by rw [on_bound]; exact h4.trans hn, h5⟩
  have henv : ∀ {oa : PyRes (PyObj V)} {k : PyObj V → PyRes (PyObj V) → Prop} {out}, oa.Then k out →
      oa.Then (fun x out => ∃ env, envs env ∧ k x out) out := fun h => h.imp fun x hx => ⟨env₀, h0, hx⟩
  induction e generalizing out with
  | mat f r k ip ix d =>
    refine Prog.lands_of_value (hok _ h0) hl hs h (fun v hv => hlit _ ?_ ?_ hl hs v hv)
    · intro fn a; cases fn <;> nofun
    · nofun
  | coo r k row col d =>
    refine Prog.lands_of_value (hok _ h0) hl hs h (fun v hv => hlit _ ?_ ?_ hl hs v hv)
    · intro fn a; cases fn <;> nofun
    · nofun
  | nd s ix d =>
    refine Prog.lands_of_value (hok _ h0) hl hs h (fun v hv => hlit _ ?_ ?_ hl hs v hv)
    · intro fn a; cases fn <;> nofun
    · nofun
  | un op a ih => obtain ⟨oa, h1, h2⟩ := h; exact main (.un op) a hl hs.1 hs out oa (ih hl hs.1 h1) (henv h2)
  | scalar op a α ih => obtain ⟨oa, h1, h2⟩ := h; exact main (.scalar op α) a hl hs.1 hs out oa (ih hl hs.1 h1) (henv h2)
  | left op α a ih => obtain ⟨oa, h1, h2⟩ := h; exact main (.left op α) a hl hs.1 hs out oa (ih hl hs.1 h1) (henv h2)
  | T a ih => obtain ⟨oa, h1, h2⟩ := h; exact main .T a hl hs.1 hs out oa (ih hl hs.1 h1) h2
  | prune eps a ih => obtain ⟨oa, h1, h2⟩ := h; exact main (.prune eps) a hl hs.1 hs out oa (ih hl hs.1 h1) h2
  | elimZeros a ih => obtain ⟨oa, h1, h2⟩ := h; exact main .elimZeros a hl hs.1 hs out oa (ih hl hs.1 h1) h2
  | ndop op arg a ih => obtain ⟨oa, h1, h2⟩ := h; exact main (.ndop op arg) a hl hs.1 hs out oa (ih hl hs.1 h1) h2
  | mode f axis a ih => obtain ⟨oa, h1, h2⟩ := h; exact main (.mode f axis) a hl hs.1 hs out oa (ih hl hs.1 h1) h2
  | bin op a b iha ihb =>
    obtain ⟨oa, h1, h2⟩ := h
    have ha := iha hl.1 hs.1 h1
    unfold Prog.Lands at ha
    cases hc : a.check with
    | error x =>
      rw [hc] at ha
      subst ha
      unfold Prog.Lands
      rw [show (Prog.bin op a b).check = .error x by
        show (a.check.bind fun x => b.check.bind fun y => Ty.bin op x y) = _; rw [hc]; rfl]
      exact h2
    | ok τ =>
      rw [hc] at ha
      obtain ⟨v, rfl, hg, rfl, hn, hI⟩ := ha
      obtain ⟨ob, h3, h4⟩ := h2
      have hb := ihb hl.2 hs.2.1 h3
      unfold Prog.Lands at hb
      cases hc' : b.check with
      | error x =>
        rw [hc'] at hb
        subst hb
        unfold Prog.Lands
        rw [show (Prog.bin op a b).check = .error x by
          show (a.check.bind fun x => b.check.bind fun y => Ty.bin op x y) = _; rw [hc, hc']; rfl]
        exact h4
      | ok σ =>
        rw [hc'] at hb
        obtain ⟨v', rfl, hg', rfl, hn', hI'⟩ := hb
        obtain ⟨env, he, hcall⟩ := h4
        have hsm := bin_lit_small hg hg' hc hc' hn hn' hs
        have hE := (bin_eval hg hg' (hok env he) op out).2 hcall
        have := Prog.lands_of_value (hok env he) (e := .bin op v.lit v'.lit) ⟨lit_litsOk hg, lit_litsOk hg'⟩ hsm hE
          (I := I (.bin op a b))
          (fun w hw => hbin env op a b v v' w he hl.1 hs.1 hl.2 hs.2.1 hg hc hg' hc' hsm hI hI' hw)
        unfold Prog.Lands at this ⊢
        rw [bin_lit_check hg hg' hc hc' op] at this
        cases hcf : (Prog.bin op a b).check with
        | error x => rw [hcf] at this; exact this
        | ok τ =>
          rw [hcf] at this
          obtain ⟨w, k1, k2, k3, k4, k5⟩ := this
          exact ⟨w, k1, k2, k3, k4.trans (bin_lit_bound hg hc hn hn' op), k5⟩

/-! ### programs whose result does not depend on the environment -/

theorem Prog.value_det {env env' : PyEnv V} (he : env.Ok) (he' : env'.Ok) {e : Prog V} (hl : e.LitsOk) (hs : e.Small)
    (hd : e.Determined) {w : SpVal V} (h : e.value env = .ok w) : e.value env' = .ok w := by
  obtain ⟨g1, g2, -⟩ := (Prog.step he hl hs).good hs h
  have h1 := (Prog.step he' hl hs).1
  rw [g2] at h1
  obtain ⟨w', e1, hv, ht, -⟩ := h1
  rw [e1]
  have := SpVal.ext_stores hv g1.1 ht ((Prog.value_stores he' hl hs hd e1).1.trans (Prog.value_stores he hl hs hd h).1.symm)
  rw [this]

theorem lit_distinct {v : SpVal V} (h : v.Simple) : v.lit.Distinct := by
  cases v with
  | mat f a => trivial
  | coo a =>
    show (Coo.mk _ _ a.row a.col a.data).NoDup
    have h : (((a.triples.map fun t => ([t.1.1, t.1.2], t.2))).map Prod.fst).Nodup := h
    rw [List.map_map] at h
    have e1 : (Prod.fst ∘ fun t : (Int × Int) × V => ([t.1.1, t.1.2], t.2)) = (fun p : Int × Int => [p.1, p.2]) ∘ Prod.fst := rfl
    rw [e1, ← List.map_map] at h
    exact h.of_map _
  | nd a =>
    show (CooNd.mk ((a.shape.map Int.ofNat).map Int.toNat) a.indices a.data).NoDup
    rw [map_toNat_ofNat]
    exact h

theorem lit_determined (v : SpVal V) : v.lit.Determined := by cases v <;> trivial

theorem on_value {a : Prog V} {v : SpVal V} (hv : v.Good) {env : PyEnv V} (h : a.value env = .ok v) (fn : Fn V) :
    (fn.on a).value env = (fn.on v.lit).value env := by
  cases fn with
  | un op => show (a.value env).map _ = (v.lit.value env).map _; rw [h, lit_value hv]
  | _ => show (a.value env).bind _ = (v.lit.value env).bind _; rw [h, lit_value hv]

/-- A program that stores the same entries in every environment does so when the environment changes. -/
theorem Prog.any_value {envs : PyEnv V → Prop} (hok : ∀ env, envs env → env.Ok) {env₀ env₁ : PyEnv V} (h0 : envs env₀)
    (h1 : env₁.Ok) {e : Prog V} (hl : e.LitsOk) (hs : e.Small) (hd : e.Determined) {out : PyRes (PyObj V)}
    (h : e.EvalAny envs out) : out = resObj (e.value env₁) := by
  have := Prog.any_lands hok h0 (fun e v => e.Determined → e.value env₁ = .ok v) ?_ ?_ ?_ hl hs h
  · unfold Prog.Lands at this
    have hst := (Prog.step h1 hl hs).1
    cases hc : e.check with
    | error x => rw [hc] at this hst; rw [this, show e.value env₁ = .error x from hst]; rfl
    | ok τ => rw [hc] at this; obtain ⟨v, rfl, -, -, -, hv⟩ := this; rw [hv hd]; rfl
  · intro e k1 k2 hl hs v hv _
    exact Prog.value_det (hok _ h0) h1 hl hs (by
      cases e with
      | mat f r k ip ix d => trivial
      | coo r k row col d => trivial
      | nd s ix d => trivial
      | bin op a b => exact absurd rfl (k2 op a b)
      | un op a => exact absurd rfl (k1 (.un op) a)
      | scalar op a α => exact absurd rfl (k1 (.scalar op α) a)
      | left op α a => exact absurd rfl (k1 (.left op α) a)
      | T a => exact absurd rfl (k1 .T a)
      | prune eps a => exact absurd rfl (k1 (.prune eps) a)
      | elimZeros a => exact absurd rfl (k1 .elimZeros a)
      | ndop op arg a => exact absurd rfl (k1 (.ndop op arg) a)
      | mode f axis a => exact absurd rfl (k1 (.mode f axis) a)) hv
  · intro env fn a v w he hla hsa hs hg hc hsm hI hw hd
    have hda : a.Determined := by cases fn <;> first | exact hd | exact hd.1
    have hva := hI hda
    have hdist : a.Distinct → v.lit.Distinct := fun h => lit_distinct ((Prog.value_stores h1 hla hsa hda hva).2 h)
    have hdl : (fn.on v.lit).Determined := by
      cases fn with
      | ndop op arg =>
        refine ⟨lit_determined v, ?_⟩
        have := hd.2
        cases op <;> first | trivial | exact hdist this
      | mode f axis => exact ⟨lit_determined v, hdist hd.2⟩
      | _ => exact lit_determined v
    rw [on_value hg hva]
    exact Prog.value_det (hok _ he) h1 (on_litsOk hg fn) hsm hdl hw
  · intro env op a b v v' w he hla hsa hlb hsb hg hc hg' hc' hsm hI hI' hw hd
    have e1 : (Prog.bin op a b).value env₁ = (Prog.bin op v.lit v'.lit).value env₁ := by
      show ((a.value env₁).bind fun x => (b.value env₁).bind _) = ((v.lit.value env₁).bind fun x => (v'.lit.value env₁).bind _)
      rw [hI hd.1, hI' hd.2, lit_value hg, lit_value hg']
    rw [e1]
    exact Prog.value_det (hok _ he) h1 (e := .bin op v.lit v'.lit) ⟨lit_litsOk hg, lit_litsOk hg'⟩ hsm
      ⟨lit_determined v, lit_determined v'⟩ hw

end

/-! ### cells in exact arithmetic -/

theorem Ty.scalar_ok {op : BinOp} {z : Bool} {τ σ : Ty} (h : Ty.scalar op z τ = .ok σ) : σ = τ := by
  cases op <;> cases τ <;> simp only [Ty.scalar] at h <;> first | (cases h; rfl) | cases h | skip
  all_goals
    split_ifs at h
    cases h
    rfl

theorem Ty.left_ok {op : BinOp} {τ σ : Ty} (h : Ty.left op τ = .ok σ) : σ = τ := by
  cases op <;> cases τ <;> simp only [Ty.left] at h <;> first | (cases h; rfl) | cases h

theorem Ty.prune_ok {τ σ : Ty} (h : Ty.prune τ = .ok σ) : σ = τ := by
  cases τ <;> first | (cases h; rfl) | cases h

section
variable [Field V] [LinearOrder V] [IsStrictOrderedRing V] [FloorRing V] [BEq V] [LawfulBEq V] [HasFinite V]
  [HasFloor V] [HasPowf V] [HasAbs V] [HasLt V] [HasNan V] [IdealOrd V]

theorem lit_exact (v : SpVal V) : v.lit.Exact := by cases v <;> trivial

theorem lit_dist {v : SpVal V} (h : v.Distinct) : v.lit.Distinct := by
  cases v with
  | mat f a => trivial
  | coo a => exact h
  | nd a =>
    show (CooNd.mk ((a.shape.map Int.ofNat).map Int.toNat) a.indices a.data).NoDup
    rw [map_toNat_ofNat]
    exact h

theorem lit_cells (v : SpVal V) : v.lit.cells = v.cell := by
  cases v with
  | mat f a => cases f <;> rfl
  | coo a => rfl
  | nd a => show (SpVal.nd ⟨(a.shape.map Int.ofNat).map Int.toNat, _, _⟩).cell = _; rw [map_toNat_ofNat]

/-- Whatever environments the calls meet: the result stores what the program means. -/
theorem Prog.any_cells (hfin : ∀ v : V, isFinite v = true) (hfl : ∀ v : V, HasFloor.floor v = (⌊v⌋ : V))
    {envs : PyEnv V → Prop} (hok : ∀ env, envs env → env.Ok) {env₀ : PyEnv V} (h0 : envs env₀) {e : Prog V} (hl : e.LitsOk)
    (hs : e.Small) {out : PyRes (PyObj V)} (h : e.EvalAny envs out) :
    e.Lands (fun v => (e.Distinct → v.Distinct) ∧ (e.Exact → ∀ x, InBounds v.ty.shape x → v.cell x = e.cells x)) out := by
  refine Prog.any_lands hok h0
    (fun e v => (e.Distinct → v.Distinct) ∧ (e.Exact → ∀ x, InBounds v.ty.shape x → v.cell x = e.cells x)) ?_ ?_ ?_ hl hs h
  · intro e _ _ hl hs v hv
    exact Prog.value_cells hfin hfl (hok _ h0) hl hs hv
  · intro env fn a v w he hla hsa hs hg hc hsm hI hw
    obtain ⟨d1, d2⟩ := hI
    have hgw := (Prog.step (hok _ he) (on_litsOk hg fn) hsm).good hsm hw
    obtain ⟨c1, c2⟩ := Prog.value_cells hfin hfl (hok _ he) (on_litsOk hg fn) hsm hw
    have hd' : a.Distinct → v.lit.Distinct := fun h => lit_dist (d1 h)
    have hch := hgw.2.1
    rw [on_check hg hc fn] at hch
    constructor
    · intro hd
      refine c1 ?_
      cases fn with
      | ndop op arg => cases op <;> first | trivial | exact hd' hd
      | mode f axis => trivial
      | _ => exact hd' hd
    · intro hx x hxb
      have hxl : (fn.on v.lit).Exact := by
        cases fn with
        | un op => exact ⟨lit_exact v, fun h => hd' (hx.2 h)⟩
        | scalar op alpha => exact ⟨lit_exact v, fun h => hd' (hx.2.1 h), hx.2.2⟩
        | prune eps => exact ⟨lit_exact v, hd' hx.2⟩
        | _ => exact lit_exact v
      rw [c2 hxl x hxb]
      have hsh : a.shape = v.ty.shape := Prog.shape_of hc
      have hsl : v.lit.shape = v.ty.shape := Prog.shape_of (lit_check hg)
      cases fn with
      | un op =>
        have e1 : w.ty = v.ty := by have : a.check = .ok w.ty := hch; rw [hc] at this; exact (Except.ok.inj this).symm
        show op.eval (v.lit.cells x) = op.eval (a.cells x)
        rw [lit_cells, d2 hx.1 x (by rw [← e1]; exact hxb)]
      | scalar op alpha =>
        have e1 : w.ty = v.ty := by
          have : a.check.bind _ = .ok w.ty := hch
          rw [hc] at this
          exact Ty.scalar_ok this
        show op.eval (v.lit.cells x) alpha = op.eval (a.cells x) alpha
        rw [lit_cells, d2 hx.1 x (by rw [← e1]; exact hxb)]
      | left op alpha =>
        have e1 : w.ty = v.ty := by
          have : a.check.bind _ = .ok w.ty := hch
          rw [hc] at this
          exact Ty.left_ok this
        show op.eval alpha (v.lit.cells x) = op.eval alpha (a.cells x)
        rw [lit_cells, d2 hx x (by rw [← e1]; exact hxb)]
      | T =>
        have : a.check.bind _ = .ok w.ty := hch
        rw [hc] at this
        have hT : v.ty.T = .ok w.ty := this
        show v.lit.cells x.reverse = a.cells x.reverse
        rw [lit_cells, d2 hx x.reverse (cell_T hg hT hxb).1]
      | prune eps =>
        have e1 : w.ty = v.ty := by
          have : a.check.bind _ = .ok w.ty := hch
          rw [hc] at this
          exact Ty.prune_ok this
        show (if eps < |v.lit.cells x| then v.lit.cells x else 0) = if eps < |a.cells x| then a.cells x else 0
        rw [lit_cells, d2 hx.1 x (by rw [← e1]; exact hxb)]
      | elimZeros =>
        have e1 : w.ty = v.ty := by
          have : a.check.bind _ = .ok w.ty := hch
          rw [hc] at this
          exact Ty.prune_ok this
        show v.lit.cells x = a.cells x
        rw [lit_cells, d2 hx x (by rw [← e1]; exact hxb)]
      | ndop op arg =>
        have : a.check.bind _ = .ok w.ty := hch
        rw [hc] at this
        have hT : v.ty.ndop op arg = .ok w.ty := this
        cases v with
        | mat f c => cases op <;> cases hT
        | coo c => cases op <;> cases hT
        | nd c =>
          obtain ⟨xs, hxs, hty⟩ := bind_ok (show (argDims arg).bind (op.ty c.shape) = .ok w.ty from hT)
          show op.cells (SpVal.nd c).lit.shape (arg.map Int.toNat) (SpVal.nd c).lit.cells x =
            op.cells a.shape (arg.map Int.toNat) a.cells x
          rw [hsh, hsl, lit_cells, ← argDims_ok hxs]
          exact NdOp.cells_congr hty (fun y hy => d2 hx y hy) hxb
      | mode f axis =>
        have : a.check.bind _ = .ok w.ty := hch
        rw [hc] at this
        have hT : v.ty.mode f axis = .ok w.ty := this
        cases v with
        | mat f c => cases hT
        | coo c => cases hT
        | nd c =>
          have hT : Ty.mode f axis (.nd c.shape) = .ok w.ty := hT
          simp only [Ty.mode] at hT
          split_ifs at hT with k1 k2
          have hty : (NdOp.unfold f).ty c.shape [axis.toNat] = .ok w.ty := by
            rw [← hT]
            have : AxesOk c.shape.length [axis.toNat] := ⟨by simpa using k2, by simp⟩
            simp only [NdOp.ty, this, if_true, extents, List.map_cons, List.map_nil, List.prod_cons, List.prod_nil, mul_one]
          show (NdOp.unfold f).cells (SpVal.nd c).lit.shape [axis.toNat] (SpVal.nd c).lit.cells x =
            (NdOp.unfold f).cells a.shape [axis.toNat] a.cells x
          rw [hsh, hsl, lit_cells]
          exact NdOp.cells_congr hty (fun y hy => d2 hx y hy) hxb
  · intro env op a b v v' w he hla hsa hlb hsb hg hc hg' hc' hsm hI hI' hw
    obtain ⟨-, d2⟩ := hI
    obtain ⟨-, d2'⟩ := hI'
    have hlb' : (Prog.bin op v.lit v'.lit).LitsOk := ⟨lit_litsOk hg, lit_litsOk hg'⟩
    obtain ⟨c1, c2⟩ := Prog.value_cells hfin hfl (hok _ he) hlb' hsm hw
    refine ⟨fun _ => c1 trivial, fun hx x hxb => ?_⟩
    rw [c2 ⟨lit_exact v, lit_exact v', hx.2.2⟩ x hxb]
    have hbv : v.bin env op v' = .ok w := by
      have : ((v.lit.value env).bind fun x => (v'.lit.value env).bind fun y => x.bin env op y) = .ok w := hw
      rw [lit_value hg, lit_value hg'] at this
      exact this
    have hfit := hsm.2.2
    unfold Prog.Fits at hfit
    obtain ⟨-, m2⟩ := cell_bin hfin hfl (hok _ he) op hg hg' hbv fun u hu => by
      have hcu : (Prog.bin op v.lit v'.lit).check = .ok (.nd u) := by
        show (v.lit.check.bind fun x => v'.lit.check.bind fun y => Ty.bin op x y) = _
        rw [lit_check hg, lit_check hg']; exact hu
      rw [hcu] at hfit
      have h63 : (u.prod : Int) ≤ i64Max := hfit.2.1
      unfold i64Max at h63; unfold usizeMax; omega
    obtain ⟨n1, n2, -⟩ := m2 x hxb
    show op.eval (v.lit.cells (bcastIndex v.lit.shape x)) (v'.lit.cells (bcastIndex v'.lit.shape x)) =
      op.eval (a.cells (bcastIndex a.shape x)) (b.cells (bcastIndex b.shape x))
    rw [lit_cells, lit_cells, Prog.shape_of (lit_check hg), Prog.shape_of (lit_check hg'), Prog.shape_of hc, Prog.shape_of hc',
      d2 hx.1 _ n1, d2' hx.2.1 _ n2]

end
end Lacuna
