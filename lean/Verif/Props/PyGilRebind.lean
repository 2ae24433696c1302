import Verif.Spec.PyGilRebind
import Verif.Props.PyGil
import Verif.Props.PyRebind
/-
C104: several Python threads that also assign to the attributes of objects and write to arrays of indices while calls run.
-/
set_option linter.unusedSectionVars false

namespace Lacuna
variable {V : Type}

section
variable [Zero V] [One V] [Add V] [Sub V] [Mul V] [Div V] [Neg V] [BEq V] [NatCast V] [HasFinite V]
  [HasFloor V] [HasPowf V] [HasAbs V] [HasLt V] [HasNan V] [HasFma V] [HasMinMax V] [HasSqrt V]

omit [HasMinMax V] [HasSqrt V] in
/-- A write to an array of indices is no race. -/
theorem setInts_act {env : PyEnv V} {m : PyThreads V} {a : Nat} {l : List Int} {out : PyRes (PyThreads V)} :
    m.Step env (.stmt (.setInts a l)) out ↔
      ∃ old, m.sess.ints[a]? = some old ∧ out = if l.length = old.length then
        .ret { m with sess := { m.sess with ints := m.sess.ints.set a l } } else .raises .valueError := by
  have hn : ¬ m.Races env (.setInts a l) := by rintro ⟨b, k, h, -⟩; cases h
  constructor
  · rintro ⟨-, o, ⟨old, ho, rfl⟩, ⟨-, rfl⟩ | ⟨h, -⟩⟩
    · refine ⟨old, ho, ?_⟩
      split <;> rfl
    · exact (hn h).elim
  · rintro ⟨old, ho, rfl⟩
    refine ⟨rfl, _, ⟨old, ho, rfl⟩, .inl ⟨hn, ?_⟩⟩
    split <;> rfl

omit [HasMinMax V] [HasSqrt V] in
theorem tame_act {m : PyThreads V} {a : Act V} (hst : ¬ ∃ b l, a = .stmt (.setInts b l)) (ht : m.TameCmd (.act a)) : m.Tame a := by
  cases a with
  | stmt st => exact tame_run (fun ⟨b, l, e⟩ => hst ⟨b, l, by rw [e]⟩) ht
  | _ => exact ht

omit [HasMinMax V] [HasSqrt V] in
theorem tame_cmd_act {m : PyThreads V} {a : Act V} (ht : m.Tame a) : m.TameCmd (.act a) := by
  cases a with
  | stmt st => exact tame_cmd ht
  | _ => exact ht

theorem do_inv (hm : ∀ x y : V, x * y = y * x) {env : PyEnv V} (he : env.Ok) {m : PyThreads V} (hI : m.Inv) {c : ThreadCmd V}
    (ht : m.TameCmd c) {m' : PyThreads V} (h : m.Do env c (.ret m')) : m'.Inv := by
  cases c with
  | act a =>
    by_cases hst : ∃ b l, a = .stmt (.setInts b l)
    · obtain ⟨b, l, rfl⟩ := hst
      obtain ⟨old, -, e⟩ := setInts_act.1 h
      split at e
      · cases e
        exact ⟨fun o ho => (hI.sess o ho).setInts (ht o ho), fun j hj => (hI.jobs j hj).mono fun _ _ _ _ hl => hl⟩
      · cases e
    · exact threads_step_inv hm he hI (tame_act hst ht) h
  | rebind x w =>
    obtain ⟨-, hd, e⟩ := h
    cases e
    exact ⟨rebind_inv hI.sess hd ht, fun j hj => (hI.jobs j hj).mono fun _ _ _ _ hl => hl⟩

theorem gil_inv (hm : ∀ x y : V, x * y = y * x) {envs : PyEnv V → Prop} (he : ∀ env, envs env → env.Ok) {m : PyThreads V}
    (h : PyThreads.Visits envs PyThreads.TameCmd m) : m.Inv := by
  induction h with
  | start => exact ⟨fun o ho => (by cases ho), fun j hj => (by cases hj)⟩
  | step _ hmem ht hs ih => exact do_inv hm (he _ hmem) ih ht hs

/-! ### Safety -/

/-- In every interleaving, both contents of every object are valid, of the same class and shape. -/
theorem gil_valid (hm : ∀ x y : V, x * y = y * x) {m : PyThreads V} (hr : PyThreads.Visits PyEnv.Ok PyThreads.TameCmd m)
    {o : RefObj V} (ho : o ∈ m.sess.objs) :
    (o.now m.sess).Valid ∧ (o.snap m.sess).Valid ∧ (o.snap m.sess).ty = (o.now m.sess).ty := by
  have hok := (gil_inv hm (fun _ h => h) hr).sess o ho
  exact ⟨(hok.good false).1, (hok.good true).1, hok.ty_eq true⟩

/-- The only undefined behaviour is that of C102; assignments to attributes and writes to arrays of indices race with
nothing, and nothing hangs. -/
theorem gil_safe (hm : ∀ x y : V, x * y = y * x) {m : PyThreads V} (hr : PyThreads.Visits PyEnv.Ok PyThreads.TameCmd m) {env : PyEnv V}
    (he : env.Ok) {c : ThreadCmd V} (ht : m.TameCmd c) {out : PyRes (PyThreads V)} (h : m.Do env c out) :
    (∃ m', out = .ret m') ∨ (∃ x, out = .raises x) ∨
      (out = .ub ∧ ∃ b l, c = .act (.stmt (.setFloats b l)) ∧ ∃ fn x shape y, Job.lin fn x shape b y ∈ m.jobs ∧
        fn.borrows x shape = true ∧ ∀ e, ¬ LinSparseDense env fn x ⟨shape, y⟩ (.raises e)) := by
  cases c with
  | act a =>
    by_cases hst : ∃ b l, a = .stmt (.setInts b l)
    · obtain ⟨b, l, rfl⟩ := hst
      obtain ⟨old, -, rfl⟩ := setInts_act.1 h
      split
      · exact .inl ⟨_, rfl⟩
      · exact .inr (.inl ⟨_, rfl⟩)
    · rcases threads_safe_inv hm (gil_inv hm (fun _ h => h) hr) he (tame_act hst ht) h with h1 | h1 | ⟨h1, b, l, rfl, h2⟩
      · exact .inl h1
      · exact .inr (.inl h1)
      · exact .inr (.inr ⟨h1, b, l, rfl, h2⟩)
  | rebind x w =>
    obtain ⟨-, -, rfl⟩ := h
    exact .inl ⟨_, rfl⟩

/-- Everything has an outcome; in particular, every running call comes back. -/
theorem gil_total (hm : ∀ x y : V, x * y = y * x) {m : PyThreads V} (hr : PyThreads.Visits PyEnv.Ok PyThreads.TameCmd m) {env : PyEnv V}
    (he : env.Ok) {c : ThreadCmd V} (ht : m.TameCmd c) (hd : m.DefinedCmd c) : ∃ out, m.Do env c out := by
  cases c with
  | act a =>
    by_cases hst : ∃ b l, a = .stmt (.setInts b l)
    · obtain ⟨b, l, rfl⟩ := hst
      exact ⟨_, setInts_act.2 ⟨_, List.getElem?_eq_getElem (show b < m.sess.ints.length from hd.2), rfl⟩⟩
    · exact threads_total_inv hm (gil_inv hm (fun _ h => h) hr) he (tame_act hst ht) hd
  | rebind x w => exact ⟨_, hd.1, hd.2, rfl⟩

/-! ### Calls are atomic -/

/-- A call with sparse operands finishes as if it had been executed alone when it was started, whatever is assigned and written
to meanwhile: it evaluates the program of C81 with the contents that its operands had then. -/
theorem gil_atomic (hm : ∀ x y : V, x * y = y * x) {m : PyThreads V} (hr : PyThreads.Visits PyEnv.Ok PyThreads.TameCmd m) {a : Act V}
    (ht : m.Tame a) {st : Stmt V} (hst : (∃ fn x, a = .call fn x ∧ st = .call fn x) ∨ ∃ op x y, a = .bin op x y ∧ st = .bin op x y)
    {env₀ : PyEnv V} {m₁ : PyThreads V} (h : m.Do env₀ (.act a) (.ret m₁)) :
    ∃ j p, m₁ = { m with jobs := m.jobs ++ [j] } ∧ m.sess.prog st = some p ∧
      ∀ (m' : PyThreads V) (k : Nat), m'.jobs[k]? = some j → ∀ env : PyEnv V, env.Ok → ∀ out,
        m'.Do env (.act (.finish k)) out ↔
          (∃ x, p.Eval env (.ret x) ∧ out = .ret ⟨m'.sess.alloc x, m'.jobs.eraseIdx k⟩) ∨
          (∃ e, p.Eval env (.raises e) ∧ out = .ret ⟨m'.sess, m'.jobs.eraseIdx k⟩) :=
  threads_atomic_inv (gil_inv hm (fun _ h => h) hr) ht hst h

/-! ### Calls do not wait for each other -/

/-- A running call can finish whatever else is running: it comes back in every environment, only it ends, and nothing that
existed before changes. -/
theorem gil_finish (hm : ∀ x y : V, x * y = y * x) {m : PyThreads V} (hr : PyThreads.Visits PyEnv.Ok PyThreads.TameCmd m)
    {env : PyEnv V} (he : env.Ok) {k : Nat} (hk : k < m.jobs.length) :
    (∃ out, m.Do env (.act (.finish k)) out) ∧
    ∀ out, m.Do env (.act (.finish k)) out → ∃ s, out = .ret ⟨s, m.jobs.eraseIdx k⟩ ∧ m.sess.Extends s := by
  refine ⟨gil_total hm hr he (c := .act (.finish k)) trivial hk, fun out h => ?_⟩
  have hs := gil_safe hm hr he (c := .act (.finish k)) trivial h
  obtain ⟨j, -, r, -, rfl⟩ := h
  cases r with
  | ret y =>
    refine ⟨_, rfl, ?_⟩
    cases y with
    | dense d => exact ⟨List.prefix_rfl, List.prefix_append _ _, List.prefix_rfl⟩
    | sparse x => cases x <;> exact ⟨List.prefix_append _ _, List.prefix_append _ _, List.prefix_append _ _⟩
  | raises e => exact ⟨_, rfl, List.prefix_rfl, List.prefix_rfl, List.prefix_rfl⟩
  | ub => simp at hs
  | hang => simp at hs

/-- No deadlock: in every state, all running calls can finish (in any order, by `gil_finish`), and leave what existed before as it
was. -/
theorem gil_drain (hm : ∀ x y : V, x * y = y * x) {m : PyThreads V} (hr : PyThreads.Visits PyEnv.Ok PyThreads.TameCmd m)
    {env : PyEnv V} (he : env.Ok) :
    ∃ s, PyThreads.Visits PyEnv.Ok PyThreads.TameCmd (⟨s, []⟩ : PyThreads V) ∧ m.sess.Extends s := by
  generalize hn : m.jobs.length = n
  induction n generalizing m with
  | zero =>
    obtain ⟨s, js⟩ := m
    obtain rfl : js = [] := List.length_eq_zero_iff.1 hn
    exact ⟨s, hr, List.prefix_rfl, List.prefix_rfl, List.prefix_rfl⟩
  | succ n ih =>
    have hk : 0 < m.jobs.length := by omega
    obtain ⟨⟨out, ho⟩, hf⟩ := gil_finish hm hr he hk
    obtain ⟨s, rfl, h1, h2, h3⟩ := hf out ho
    obtain ⟨s', hv, g1, g2, g3⟩ := ih (.step (c := .act (.finish 0)) hr he trivial ho)
      (by show (m.jobs.eraseIdx _).length = n; rw [List.length_eraseIdx_of_lt hk]; omega)
    exact ⟨s', hv, h1.trans g1, h2.trans g2, h3.trans g3⟩

omit [HasMinMax V] [HasSqrt V] in
/-- Assignments to attributes and writes to arrays of indices end no call and start none, and leave the array that a running
`tensordot` or `vecdot` reads as it is. -/
theorem gil_jobs {m m' : PyThreads V} {env : PyEnv V} {c : ThreadCmd V}
    (hc : (∃ x w, c = .rebind x w) ∨ ∃ b l, c = .act (.stmt (.setInts b l))) (h : m.Do env c (.ret m')) :
    m'.jobs = m.jobs ∧ m'.sess.floats = m.sess.floats := by
  rcases hc with ⟨x, w, rfl⟩ | ⟨b, l, rfl⟩
  · obtain ⟨-, -, e⟩ := h
    cases e
    exact ⟨rfl, rfl⟩
  · obtain ⟨old, -, e⟩ := setInts_act.1 h
    split at e
    · cases e; exact ⟨rfl, rfl⟩
    · cases e

omit [HasMinMax V] [HasSqrt V] in
/-- One thread alone: the sessions of C103. -/
theorem gil_session {envs : PyEnv V → Prop} {s : Sess V} (hr : Sess.Visits envs Sess.TameCmd s) :
    PyThreads.Visits envs PyThreads.TameCmd ⟨s, []⟩ := by
  induction hr with
  | start => exact .start
  | @step env s s' c _ he ht hs ih =>
    cases c with
    | rebind x w => exact .step ih he (c := .rebind x w) ht ⟨hs.1, hs.2.1, by rw [PyRes.ret.inj hs.2.2]⟩
    | run st =>
      have hno : ∀ st, ¬ PyThreads.Races env (⟨s, []⟩ : PyThreads V) st := by rintro st ⟨b, l, -, j, hj, -⟩; cases hj
      cases hpl : st.plain with
      | true => exact .step ih he (c := .act (.stmt st)) ht ⟨hpl, _, hs, .inl ⟨hno st, rfl⟩⟩
      | false =>
        cases st with
        | call fn x =>
          obtain ⟨o, ho, r, hr, e⟩ := hs
          have h1 := PyThreads.Visits.step ih he (c := .act (.call fn x)) ht ⟨o, ho, rfl⟩
          cases r with
          | ret y => cases e; exact .step h1 he (c := .act (.finish 0)) trivial ⟨_, rfl, .ret (.sparse y), ⟨_, hr, rfl⟩, rfl⟩
          | _ => cases e
        | bin op x y =>
          obtain ⟨o, o', ho, ho', r, hr, e⟩ := hs
          have h1 := PyThreads.Visits.step ih he (c := .act (.bin op x y)) ht ⟨o, o', ho, ho', rfl⟩
          cases r with
          | ret y => cases e; exact .step h1 he (c := .act (.finish 0)) trivial ⟨_, rfl, .ret (.sparse y), ⟨_, hr, rfl⟩, rfl⟩
          | _ => cases e
        | _ => cases hpl

omit [HasMinMax V] [HasSqrt V] in
/-- The interleavings of C102 are among these. -/
theorem gil_threads {envs : PyEnv V → Prop} {m : PyThreads V} (hr : PyThreads.Reach envs PyThreads.Tame m) :
    PyThreads.Visits envs PyThreads.TameCmd m := by
  induction hr with
  | start => exact .start
  | @step env m m' a _ he ht hs ih => exact .step (c := .act a) ih he (tame_cmd_act ht) hs

end

section
variable [Field V] [BEq V] [LawfulBEq V] [HasFinite V] [HasFloor V] [HasPowf V] [HasAbs V] [HasLt V] [HasNan V] [HasFma V]
  [IdealFma V] [HasMinMax V] [HasSqrt V]

/-- Over a field, a product with a dense operand gives one result in every state in which it finishes: the contraction of the
contents that its operands had when it was started. -/
theorem gil_value {m : PyThreads V} (hr : PyThreads.Visits PyEnv.Ok PyThreads.TameCmd m) {fn : LinFn} {i : Nat} {shape : List Nat} {b : Nat}
    (ht : m.Tame (.lin fn i shape b)) {o : RefObj V} {l : List V} (ho : m.sess.objs[i]? = some o) (hl : m.sess.floats[b]? = some l)
    (h2 : (o.now m.sess).ty.Is2d) {tr : Bool} {p : Nat} (hc : fn.Contraction shape.length tr p) {r c : Nat}
    (hrc : (if tr then (o.now m.sess).ty.shape.reverse else (o.now m.sess).ty.shape) = [r, c]) (hyc : shape[p]? = some c) :
    ∃ j d, (∀ env out, m.Do env (.act (.lin fn i shape b)) out ↔ out = .ret { m with jobs := m.jobs ++ [j] }) ∧
      Contracts r c (fun x => (o.view m.sess (Query.linalg fn ⟨shape, l⟩ : Query V).frozen).cell (if tr then x.reverse else x)) p
        ⟨shape, l⟩ d ∧
      ∀ (m' : PyThreads V) (k : Nat), m'.jobs[k]? = some j → ∀ (env : PyEnv V) out,
        m'.Do env (.act (.finish k)) out ↔
          out = .ret ⟨{ m'.sess with floats := m'.sess.floats ++ [d.data] }, m'.jobs.eraseIdx k⟩ :=
  threads_value_inv (gil_inv mul_comm (fun _ h => h) hr) ht ho hl h2 hc hrc hyc

end

/-! ### examples -/

section
attribute [local instance] meaningHasFinite meaningHasFloor meaningHasPowf meaningHasLt meaningHasAbs meaningHasNan meaningIdealOrd

/-- One thread has called `abs(x)` in the state `exDense`; another one assigns `x.data = y` and then writes `[0, 1, 2]` to the array of
indices. -/
def exAssigned : PyThreads ℚ :=
  ⟨⟨[[0, 2, 3], [0, 1, 2]], [[1, -2, 3], [1, 10, 100]],
    [.mat .csr 2 3 0 1 1 (some ⟨2, 3, [0, 2, 3], [0, 2, 1], [5, 6, 7]⟩), .mat .csc 3 2 0 1 0 (some ⟨2, 3, [0, 2, 3], [0, 2, 1], [5, 6, 7]⟩)]⟩,
    [.call (.un .abs) (.mat .csr ⟨2, 3, [0, 2, 3], [0, 2, 1], [1, -2, 3], some ⟨2, 3, [0, 2, 3], [0, 2, 1], [5, 6, 7]⟩⟩)]⟩

theorem exAssigned_visits [HasFma ℚ] (dbg : Bool) : PyThreads.Visits PyEnv.Ok PyThreads.TameCmd exAssigned := by
  have he := exEnvQ_ok dbg
  have h1 : PyThreads.Visits PyEnv.Ok PyThreads.TameCmd (⟨exDense, exAssigned.jobs⟩ : PyThreads ℚ) := by
    refine .step (c := .act (.call (.un .abs) 0)) (gil_threads (exDense_reach dbg)) he ?_ ⟨_, rfl, rfl⟩
    intro o h; cases h; show Ty.SizeOk 3 (.mat .csr 2 3); decide
  have h2 : PyThreads.Visits PyEnv.Ok PyThreads.TameCmd (⟨exDense.rebind 0 (.data 1), exAssigned.jobs⟩ : PyThreads ℚ) := by
    refine .step (c := .rebind 0 (.data 1)) h1 he ?_ ⟨by decide, by show 1 < 2; omega, rfl⟩
    rintro o h
    cases h
    exact ⟨exWF _ _ (by decide) rfl, by show Ty.SizeOk 3 (.mat .csr 2 3); decide, rfl⟩
  refine .step (c := .act (.stmt (.setInts 1 [0, 1, 2]))) h2 he ?_ (setInts_act.2 ⟨_, rfl, rfl⟩)
  intro o ho
  have ho : o ∈ [RefObj.mat (V := ℚ) _ _ _ _ _ _ _, _] := ho
  rcases List.mem_cons.1 ho with rfl | ho
  · exact exWF _ _ (by decide) rfl
  · obtain rfl := List.mem_singleton.1 ho
    exact exWF _ _ (by decide) rfl

/-- `abs(x)` still finishes with the arrays that `x` had when it was called. -/
example (dbg : Bool) [HasFma ℚ] [HasMinMax ℚ] [HasSqrt ℚ] (out : PyRes (PyThreads ℚ)) :
    exAssigned.Do (exEnvQ dbg) (.act (.finish 0)) out ↔
      (∃ x, (Prog.un .abs (.mat .csr 2 3 [0, 2, 3] [0, 2, 1] [1, -2, 3] : Prog ℚ)).Eval (exEnvQ dbg) (.ret x) ∧
        out = .ret ⟨exAssigned.sess.alloc x, []⟩) ∨
      ∃ e, (Prog.un .abs (.mat .csr 2 3 [0, 2, 3] [0, 2, 1] [1, -2, 3] : Prog ℚ)).Eval (exEnvQ dbg) (.raises e) ∧
        out = .ret ⟨exAssigned.sess, []⟩ := by
  obtain ⟨j, p, h1, h2, h3⟩ := gil_atomic mul_comm (gil_threads (exDense_reach dbg)) (a := .call (.un .abs) 0) (st := .call (.un .abs) 0)
    (by intro o h; cases h; show Ty.SizeOk 3 (.mat .csr 2 3); decide) (.inl ⟨_, _, rfl, rfl⟩) (env₀ := exEnvQ dbg) ⟨_, rfl, rfl⟩
  simp only [PyThreads.mk.injEq, List.nil_append, List.cons.injEq, true_and, and_true] at h1
  cases h1
  cases h2
  exact h3 exAssigned 0 rfl _ (exEnvQ_ok dbg) out

/-- It comes back, and nothing runs afterwards. -/
example (dbg : Bool) [HasFma ℚ] [HasMinMax ℚ] [HasSqrt ℚ] : ∃ s, exAssigned.Do (exEnvQ dbg) (.act (.finish 0)) (.ret ⟨s, []⟩) ∧
    exAssigned.sess.Extends s := by
  obtain ⟨⟨out, ho⟩, h⟩ := gil_finish mul_comm (exAssigned_visits dbg) (exEnvQ_ok dbg) (k := 0) (by decide)
  obtain ⟨s, rfl, hs⟩ := h out ho
  exact ⟨s, ho, hs⟩

/-- A call of `abs(x)` that is started now sees the new values and the new indices. -/
example (dbg : Bool) [HasFma ℚ] [HasMinMax ℚ] [HasSqrt ℚ] : ∃ m₁, exAssigned.Do (exEnvQ dbg) (.act (.call (.un .abs) 0)) (.ret m₁) ∧
    ∀ out, m₁.Do (exEnvQ dbg) (.act (.finish 1)) out ↔
      (∃ x, (Prog.un .abs (.mat .csr 2 3 [0, 2, 3] [0, 1, 2] [1, 10, 100] : Prog ℚ)).Eval (exEnvQ dbg) (.ret x) ∧
        out = .ret ⟨exAssigned.sess.alloc x, exAssigned.jobs⟩) ∨
      ∃ e, (Prog.un .abs (.mat .csr 2 3 [0, 2, 3] [0, 1, 2] [1, 10, 100] : Prog ℚ)).Eval (exEnvQ dbg) (.raises e) ∧
        out = .ret ⟨exAssigned.sess, exAssigned.jobs⟩ := by
  refine ⟨_, ⟨_, rfl, rfl⟩, ?_⟩
  obtain ⟨j, p, h1, h2, h3⟩ := gil_atomic mul_comm (exAssigned_visits dbg) (a := .call (.un .abs) 0) (st := .call (.un .abs) 0)
    (by intro o h; cases h; show Ty.SizeOk 3 (.mat .csr 2 3); decide) (.inl ⟨_, _, rfl, rfl⟩) (env₀ := exEnvQ dbg) ⟨_, rfl, rfl⟩
  cases h2
  rw [h1]
  exact h3 _ 1 rfl _ (exEnvQ_ok dbg)

/-- `tensordot(x, y, 1)`, started now with `y = np.array([1, 10, 100]).reshape(3, 1)`, is the present `[[1, 10, 0], [0, 0, 100]]` times `y`. -/
example (dbg : Bool) [HasFma ℚ] [IdealFma ℚ] [HasMinMax ℚ] [HasSqrt ℚ] :
    ∃ m₁, exAssigned.Do (exEnvQ dbg) (.act (.lin (.tensordot (.int 1)) 0 [3, 1] 1)) (.ret m₁) ∧ ∀ out,
      m₁.Do (exEnvQ dbg) (.act (.finish 1)) out ↔
        out = .ret ⟨{ exAssigned.sess with floats := exAssigned.sess.floats ++ [[101, 10000]] }, exAssigned.jobs⟩ := by
  have ht : exAssigned.Tame (.lin (.tensordot (.int 1)) 0 [3, 1] 1) := by
    intro o l ho hl
    cases ho; cases hl
    refine ⟨⟨rfl, by show (8 * ((3 : Nat) : Int)) ≤ _; decide⟩, fun _ => ?_, fun s hs => by cases hs⟩
    rintro tr p r c ⟨rfl, -, rfl, -⟩ h2 h3
    cases h2; cases h3
    refine ⟨Nat.one_pos, ?_⟩
    show (8 * ((max 2 1 * 1 : Nat) : Int)) ≤ _
    decide
  obtain ⟨j, d, h1, h2, h3⟩ := gil_value (exAssigned_visits dbg) ht
    (o := .mat .csr 2 3 0 1 1 (some ⟨2, 3, [0, 2, 3], [0, 2, 1], [5, 6, 7]⟩)) (l := [1, 10, 100]) rfl rfl trivial (tr := false) (p := 0)
    ⟨rfl, by decide, rfl, .inl rfl⟩ (r := 2) (c := 3) rfl rfl
  have hd : d = ⟨[2, 1], [101, 10000]⟩ := by
    refine h2.unique ⟨rfl, rfl, fun z hz => ?_⟩
    have hz' : z ∈ [[(0 : Int), 0], [1, 0]] := mem_indicesOf.2 hz
    rcases List.mem_cons.1 hz' with rfl | hz'
    · decide +kernel
    · cases List.mem_singleton.1 hz'
      decide +kernel
  refine ⟨_, (h1 _ _).2 rfl, fun out => ?_⟩
  rw [h3 _ 1 rfl, hd]
  rfl

end
end Lacuna
