import Verif.Lemmas.PyVar
import Verif.Props.PyBits
import Verif.Props.PyMeaning
/-
C101: Python programs when the environment changes from call to call - the number of threads by
`set_num_threads`, the iteration order of the hash maps by itself.
-/
set_option linter.unusedSectionVars false

namespace Lacuna
variable {V : Type}

section
variable [Zero V] [One V] [Add V] [Sub V] [Mul V] [Div V] [Neg V] [BEq V] [NatCast V] [HasFinite V]
  [HasFloor V] [HasPowf V] [HasAbs V] [HasLt V] [HasNan V]

/-- C101: let every call meet an environment of its own among `envs`, all of which behave as documented.  In any
arithmetic, a program with valid literals and results that fit into memory returns an object of the computed type, with
valid arrays, or raises the computed exception. -/
theorem any_sound {envs : PyEnv V → Prop} (hok : ∀ env, envs env → env.Ok) {env₀ : PyEnv V} (h0 : envs env₀) {e : Prog V}
    (hl : e.LitsOk) (hs : e.Small) {out : PyRes (PyObj V)} (h : e.EvalAny envs out) :
    match e.check with
    | .ok τ => ∃ v : SpVal V, out = .ret v.obj ∧ v.Valid ∧ v.ty = τ ∧ v.nnz ≤ e.bound
    | .error x => out = .raises x := by
  have := Prog.any_lands hok h0 (fun _ _ => True) (fun _ _ _ _ _ _ _ => trivial)
    (fun _ _ _ _ _ _ _ _ _ _ _ _ _ _ => trivial) (fun _ _ _ _ _ _ _ _ _ _ _ _ _ _ _ _ _ _ _ _ => trivial) hl hs h
  unfold Prog.Lands at this
  cases hc : e.check with
  | error x => rw [hc] at this; exact this
  | ok τ =>
    rw [hc] at this
    obtain ⟨v, h1, h2, h3, h4, -⟩ := this
    exact ⟨v, h1, h2.1, h3, h4⟩

/-- No undefined behaviour, and the program comes back. -/
theorem any_safe {envs : PyEnv V → Prop} (hok : ∀ env, envs env → env.Ok) {env₀ : PyEnv V} (h0 : envs env₀) {e : Prog V}
    (hl : e.LitsOk) (hs : e.Small) : ¬ e.EvalAny envs .ub ∧ ¬ e.EvalAny envs .hang := by
  constructor
  all_goals
    intro h
    have := any_sound hok h0 hl hs h
    cases hc : e.check with
    | error x => rw [hc] at this; cases this
    | ok τ => rw [hc] at this; obtain ⟨v, h1, -⟩ := this; cases h1

/-- The outcomes in a single environment are among the outcomes, so there is one. -/
theorem any_of_eval {envs : PyEnv V → Prop} {env : PyEnv V} (h0 : envs env) {e : Prog V} {out : PyRes (PyObj V)}
    (h : e.Eval env out) : e.EvalAny envs out := .of_eval h0 h

theorem any_exists {envs : PyEnv V → Prop} (hok : ∀ env, envs env → env.Ok) {env₀ : PyEnv V} (h0 : envs env₀) {e : Prog V}
    (hl : e.LitsOk) (hs : e.Small) : ∃ out, e.EvalAny envs out := by
  obtain ⟨out, ho⟩ := prog_unique (hok _ h0) hl hs
  exact ⟨out, any_of_eval h0 ((ho out).2 rfl)⟩

/-- A program that unfolds no array with a coordinate stored twice has the same outcome, bit by bit, whatever environments
its calls meet: that of running it in one environment, any one.  So all that is proved about such programs (C79–C100)
holds for it. -/
theorem any_reproducible {envs : PyEnv V → Prop} (hok : ∀ env, envs env → env.Ok) {env₀ env₁ : PyEnv V} (h0 : envs env₀)
    (h1 : env₁.Ok) {e : Prog V} (hl : e.LitsOk) (hs : e.Small) (hd : e.Determined) (out : PyRes (PyObj V)) :
    e.EvalAny envs out ↔ e.Eval env₁ out := by
  rw [(Prog.step h1 hl hs).2]
  refine ⟨fun h => Prog.any_value hok h0 h1 hl hs hd h, fun h => ?_⟩
  subst h
  obtain ⟨out, ho⟩ := any_exists hok h0 hl hs
  rw [← Prog.any_value hok h0 h1 hl hs hd ho]
  exact ho

/-- Its stored entries. -/
theorem any_bits {envs : PyEnv V → Prop} (hok : ∀ env, envs env → env.Ok) {env₀ : PyEnv V} (h0 : envs env₀) {e : Prog V}
    (hl : e.LitsOk) (hs : e.Small) (hd : e.Determined) {out : PyRes (PyObj V)} (h : e.EvalAny envs out) :
    match e.check with
    | .ok τ => ∃ v : SpVal V, out = .ret v.obj ∧ v.Valid ∧ v.ty = τ ∧ v.stores = e.stores
    | .error x => out = .raises x :=
  prog_bits (hok _ h0) hl hs hd ((any_reproducible hok h0 (hok _ h0) hl hs hd out).1 h)

end

section
variable [Field V] [LinearOrder V] [IsStrictOrderedRing V] [FloorRing V] [BEq V] [LawfulBEq V] [HasFinite V]
  [HasFloor V] [HasPowf V] [HasAbs V] [HasLt V] [HasNan V] [IdealOrd V]

/-- In exact arithmetic the cells of the result are those of the dense array that the program means, also for programs
that unfold arrays with coordinates stored several times. -/
theorem any_correct (hfin : ∀ v : V, isFinite v = true) (hfl : ∀ v : V, HasFloor.floor v = (⌊v⌋ : V))
    {envs : PyEnv V → Prop} (hok : ∀ env, envs env → env.Ok) {env₀ : PyEnv V} (h0 : envs env₀) {e : Prog V} (hl : e.LitsOk)
    (hs : e.Small) (hx : e.Exact) {out : PyRes (PyObj V)} (h : e.EvalAny envs out) :
    match e.check with
    | .ok τ => ∃ v : SpVal V, out = .ret v.obj ∧ v.Valid ∧ v.ty = τ ∧ ∀ x, InBounds τ.shape x → v.cell x = e.cells x
    | .error x => out = .raises x := by
  have := Prog.any_cells hfin hfl hok h0 hl hs h
  unfold Prog.Lands at this
  cases hc : e.check with
  | error x => rw [hc] at this; exact this
  | ok τ =>
    rw [hc] at this
    obtain ⟨v, h1, h2, h3, -, -, h4⟩ := this
    exact ⟨v, h1, h2.1, h3, by rw [← h3]; exact h4 hx⟩

/-- Entries are stored once whenever the program text says so. -/
theorem any_distinct (hfin : ∀ v : V, isFinite v = true) (hfl : ∀ v : V, HasFloor.floor v = (⌊v⌋ : V))
    {envs : PyEnv V → Prop} (hok : ∀ env, envs env → env.Ok) {env₀ : PyEnv V} (h0 : envs env₀) {e : Prog V} (hl : e.LitsOk)
    (hs : e.Small) (hd : e.Distinct) {τ : Ty} (hc : e.check = .ok τ) {out : PyRes (PyObj V)} (h : e.EvalAny envs out) :
    ∃ v : SpVal V, out = .ret v.obj ∧ v.ty = τ ∧ v.Once := by
  have := Prog.any_cells hfin hfl hok h0 hl hs h
  unfold Prog.Lands at this
  rw [hc] at this
  obtain ⟨v, h1, h2, h3, -, h4, -⟩ := this
  refine ⟨v, h1, h3, ?_⟩
  have h4 := h4 hd
  cases v with
  | mat f a => exact fun i => (show a.WF from h2.1).noRep i
  | coo a => exact h4
  | nd a => exact h4

end

/-! ### calls that meet different environments -/

/-- Two machines: the sort of the unfolding leaves equal keys in order, or reversed. -/
def exEnvRev (rev : Bool) : PyEnv Sat :=
  { exEnvSat true 4 with tripleSort := fun l => List.insertionSort tripleLe (if rev then l.reverse else l) }

theorem exEnvRev_ok (rev : Bool) : (exEnvRev rev).Ok := by
  refine ⟨isPairSort_insertionSort, fun l => ?_, isSort_mergeSort, isCommonKeys_filter, show 4 < 2 ^ 60 by decide⟩
  obtain ⟨h1, h2⟩ := isTripleSort_insertionSort (V := Sat) (if rev then l.reverse else l)
  refine ⟨h1.trans ?_, h2⟩
  cases rev
  · exact .refl _
  · exact List.reverse_perm l

/-- `x.mode_unfold_to_csr(0) - x.mode_unfold_to_csr(0)` with a coordinate of `x` stored three times. -/
def exSelfSub : Prog Sat :=
  .bin .sub (.mode .csr 0 (.nd [1, 1] [0, 0, 0, 0, 0, 0] [⟨5⟩, ⟨5⟩, ⟨-5⟩]))
    (.mode .csr 0 (.nd [1, 1] [0, 0, 0, 0, 0, 0] [⟨5⟩, ⟨5⟩, ⟨-5⟩]))

theorem exSelfSub_lits : exSelfSub.LitsOk := by
  have h : (Prog.mode .csr 0 (.nd [1, 1] [0, 0, 0, 0, 0, 0] [⟨5⟩, ⟨5⟩, ⟨-5⟩]) : Prog Sat).LitsOk := by
    refine ⟨by decide, ⟨by simp, rfl, ?_⟩, by show ∀ i ∈ ([0, 0, 0, 0, 0, 0] : List Int), i ≤ i64Max; decide⟩
    show ∀ k < 3, ∀ d (h : d < [1, 1].length), 0 ≤ ([0, 0, 0, 0, 0, 0] : List Int).getD (k * 2 + d) 0 ∧
      ([0, 0, 0, 0, 0, 0] : List Int).getD (k * 2 + d) 0 < (([1, 1] : List Nat)[d] : Nat)
    decide
  exact ⟨h, h⟩

/-- Changing environments bring outcomes that no single environment has: each of the two machines subtracts the matrix
from itself and returns an empty one, but if the two calls meet different machines, an entry remains. -/
theorem any_more : ∃ out : PyRes (PyObj Sat), exSelfSub.EvalAny (fun env => ∃ rev, env = exEnvRev rev) out ∧
    ∀ rev, ¬ exSelfSub.Eval (exEnvRev rev) out := by
  have hs : exSelfSub.Small := by decide +kernel
  have h1 : ∀ rev, (Prog.mode .csr 0 (.nd [1, 1] [0, 0, 0, 0, 0, 0] [⟨5⟩, ⟨5⟩, ⟨-5⟩]) : Prog Sat).Eval (exEnvRev rev)
      (.ret (SpVal.mat .csr ⟨1, 1, [0, 1], [0], [if rev then ⟨5⟩ else ⟨3⟩]⟩).obj) := by
    intro rev
    refine ((Prog.step (exEnvRev_ok rev) exSelfSub_lits.1 hs.1).2 _).2 ?_
    cases rev <;> rfl
  have h2 : (Prog.bin .sub (.mat .csr 1 1 [0, 1] [0] [⟨3⟩]) (.mat .csr 1 1 [0, 1] [0] [⟨5⟩]) : Prog Sat).Eval (exEnvRev true)
      (.ret (SpVal.mat .csr ⟨1, 1, [0, 1], [0], [⟨-2⟩]⟩).obj) := by
    have hi : ∀ i ∈ ([0] : List Int), i ≤ i64Max := by decide
    have hl : (Prog.bin .sub (.mat .csr 1 1 [0, 1] [0] [⟨3⟩]) (.mat .csr 1 1 [0, 1] [0] [⟨5⟩]) : Prog Sat).LitsOk :=
      ⟨⟨hi, by simp⟩, hi, by simp⟩
    exact ((Prog.step (exEnvRev_ok true) hl (by decide +kernel)).2 _).2 (by rfl)
  refine ⟨.ret (SpVal.mat .csr ⟨1, 1, [0, 1], [0], [⟨-2⟩]⟩).obj, ?_, fun rev h => ?_⟩
  · refine ⟨_, .of_eval ⟨false, rfl⟩ (h1 false), ?_⟩
    refine ⟨_, .of_eval ⟨true, rfl⟩ (h1 true), exEnvRev true, ⟨true, rfl⟩, ?_⟩
    obtain ⟨oa, rfl, ob, rfl, h⟩ := h2
    exact h
  · have := ((Prog.step (exEnvRev_ok rev) exSelfSub_lits hs).2 _).1 h
    have hv : exSelfSub.value (exEnvRev rev) = .ok (.mat .csr ⟨1, 1, [0, 0], [], []⟩) := by cases rev <;> rfl
    rw [hv] at this
    injection this with this
    injection this with _ this
    injection this with _ _ _ _ h5
    cases h5

/-- The machines with any number of threads, one for each call. -/
def exThreads (env : PyEnv Sat) : Prop := ∃ threads < 2 ^ 60, env = exEnvSat true threads
theorem exThreads_ok : ∀ env, exThreads env → env.Ok := by
  rintro _ ⟨t, ht, rfl⟩
  exact exEnvSat_ok true ht

example {out : PyRes (PyObj Sat)} (h : exSat.EvalAny exThreads out) :
    ∃ v : SpVal Sat, out = .ret v.obj ∧ v.Valid ∧ v.ty = .nd [2] ∧ v.nnz ≤ exSat.bound := by
  have := any_sound exThreads_ok ⟨1, by decide, rfl⟩ exSat_lits (by decide +kernel) h
  rw [show exSat.check = .ok (.nd [2]) by decide +kernel] at this
  exact this
example : ¬ exSelfSub.EvalAny (fun env => ∃ rev, env = exEnvRev rev) .ub ∧
    ¬ exSelfSub.EvalAny (fun env => ∃ rev, env = exEnvRev rev) .hang :=
  any_safe (by rintro _ ⟨rev, rfl⟩; exact exEnvRev_ok rev) ⟨true, rfl⟩ exSelfSub_lits (by decide +kernel)
example : ∃ out, exSat.EvalAny PyEnv.Ok out :=
  any_exists (fun _ h => h) (exEnvSat_ok true (threads := 7) (by decide)) exSat_lits (by decide +kernel)
example (out : PyRes (PyObj Sat)) : exSat.EvalAny PyEnv.Ok out ↔ exSat.Eval (exEnvSat false 3) out :=
  any_reproducible (fun _ h => h) (exEnvSat_ok true (threads := 7) (by decide)) (exEnvSat_ok false (by decide)) exSat_lits
    (by decide +kernel) ⟨⟨trivial, trivial⟩, trivial⟩ out
example {out : PyRes (PyObj Sat)} (h : exSat.EvalAny PyEnv.Ok out) :
    ∃ v : SpVal Sat, out = .ret v.obj ∧ v.Valid ∧ v.ty = .nd [2] ∧ v.stores = [([0], ⟨-6⟩), ([1], ⟨-6⟩)] := by
  have := any_bits (fun _ h => h) (exEnvSat_ok true (threads := 7) (by decide)) exSat_lits (by decide +kernel)
    ⟨⟨trivial, trivial⟩, trivial⟩ h
  rw [show exSat.check = .ok (.nd [2]) by decide +kernel] at this
  rw [show exSat.stores = [([0], ⟨-6⟩), ([1], ⟨-6⟩)] by decide +kernel] at this
  exact this

section
attribute [local instance] meaningHasFinite meaningHasFloor meaningHasPowf meaningHasLt meaningHasAbs meaningHasNan meaningIdealOrd

example {out : PyRes (PyObj ℚ)} (h : exCalc.EvalAny PyEnv.Ok out) :
    ∃ v : SpVal ℚ, out = .ret v.obj ∧ v.Valid ∧ v.ty = .mat .csr 2 3 ∧ v.cell [1, 0] = -9 / 2 := by
  have := any_correct (fun _ => rfl) (fun _ => rfl) (fun _ h => h) (exEnvQ_ok true) exCalc_lits exCalc_small exCalc_exact h
  rw [exCalc_type] at this
  obtain ⟨v, h1, h2, h3, h4⟩ := this
  refine ⟨v, h1, h2, h3, (h4 _ (.cons ⟨by omega, ?_⟩ (.cons ⟨by omega, ?_⟩ .nil))).trans (by decide +kernel)⟩
  all_goals decide
example {out : PyRes (PyObj ℚ)} (h : exCalc.EvalAny PyEnv.Ok out) :
    ∃ v : SpVal ℚ, out = .ret v.obj ∧ v.ty = .mat .csr 2 3 ∧ v.Once :=
  any_distinct (fun _ => rfl) (fun _ => rfl) (fun _ h => h) (exEnvQ_ok true) exCalc_lits exCalc_small
    (show exCalc.Distinct from trivial) exCalc_type h
end

end Lacuna
