import Verif.Lemmas.PySession
import Verif.Props.PyRead
import Verif.Props.PyStat
/-
C81: sessions.  Python code keeps objects in variables and writes to the NumPy arrays of objects after their
construction.  What every statement does then, in any arithmetic: no undefined behaviour as long as no array of
indices is written to, which functions see the write and which see the values at construction, and which objects a
write changes.  Every statement meets an environment (threads, orders of hash maps) of its own.
-/
set_option linter.unusedSectionVars false

namespace Lacuna
variable {V : Type} [Zero V] [One V] [Add V] [Sub V] [Mul V] [Div V] [Neg V] [BEq V] [NatCast V] [HasFinite V]
  [HasFloor V] [HasPowf V] [HasAbs V] [HasLt V] [HasNan V]

/-! ### What a statement does -/

/-- Whatever values were written: both contents of every object are valid, of the same class and shape. -/
theorem session_valid {s : Sess V} (hr : Sess.Reach PyEnv.Ok Sess.Tame s) {o : RefObj V}
    (ho : o ∈ s.objs) : (o.now s).Valid ∧ (o.snap s).Valid ∧ (o.snap s).ty = (o.now s).ty := by
  have hok := reach_inv (fun _ h => h) (fun _ _ h => h) hr o ho
  exact ⟨(hok.good false).1, (hok.good true).1, hok.ty_eq true⟩

/-- Every statement has exactly one outcome: a new state or an exception; no undefined behaviour. -/
theorem session_total {env : PyEnv V} (he : env.Ok) {s : Sess V} (hr : Sess.Reach PyEnv.Ok Sess.Tame s) {st : Stmt V} (ht : s.Tame st)
    (hd : s.Defined st) : (∃ s', ∀ out, s.Step env st out ↔ out = .ret s') ∨ (∃ e, ∀ out, s.Step env st out ↔ out = .raises e) := by
  have hI := reach_inv (fun _ h => h) (fun _ _ h => h) hr
  rcases prog_isSome hd with ⟨p, hp⟩ | ⟨l, rfl⟩ | ⟨l, rfl⟩ | hw
  · rcases step_made he hI ht hd hp with ⟨e, -, h⟩ | ⟨v, s', o, -, -, h, -⟩
    · exact .inr ⟨e, h⟩
    · exact .inl ⟨s', h⟩
  · exact .inl ⟨_, fun _ => Iff.rfl⟩
  · exact .inl ⟨_, fun _ => Iff.rfl⟩
  · cases st with
    | ints _ => cases hw
    | floats _ => cases hw
    | mat _ _ _ _ _ _ => cases hw
    | coo _ _ _ _ _ => cases hw
    | nd _ _ _ => cases hw
    | call _ _ => cases hw
    | bin _ _ _ => cases hw
    | setInts a l => exact ht.elim
    | setFloats a l =>
      have e : s.floats[a]? = some _ := List.getElem?_eq_getElem hd
      have h : ∀ out, s.Step env (.setFloats a l) out ↔ out = if l.length = (s.floats[a]'hd).length then
          .ret { s with floats := s.floats.set a l } else .raises .valueError := by
        intro out
        show (∃ old, _) ↔ _
        simp only [e, Option.some.injEq, exists_eq_left']
      by_cases hl : l.length = (s.floats[a]'hd).length
      · simp only [hl, if_true] at h; exact .inl ⟨_, h⟩
      · simp only [hl, if_false] at h; exact .inr ⟨_, h⟩

/-- A statement that makes an object evaluates a program: the constructor call, or the function applied to constructor
calls with the contents at construction (`frozen`) or the present contents of the operands.  So everything proved about
programs (C73, C74, C76–C80) holds for it.  The earlier objects stay as they are. -/
theorem session_made {env : PyEnv V} (he : env.Ok) {s : Sess V} (hr : Sess.Reach PyEnv.Ok Sess.Tame s) {st : Stmt V} (ht : s.Tame st)
    (hd : s.Defined st) {p : Prog V} (hp : s.prog st = some p) :
    (∀ e, s.Step env st (.raises e) ↔ p.Eval env (.raises e)) ∧
    ∀ x, p.Eval env (.ret x) ↔ ∃ s' o, s.Step env st (.ret s') ∧ s'.objs = s.objs ++ [o] ∧ o.get s' = x ∧
      (o.now s').obj = x ∧ (o.snap s').obj = x ∧ ∀ o' ∈ s.objs, o'.get s' = o'.get s := by
  have hI := reach_inv (fun _ h => h) (fun _ _ h => h) hr
  obtain ⟨hl, hs⟩ := tame_prog hI ht hd hp
  have hE := (Prog.step he hl hs).2
  rcases step_made he hI ht hd hp with ⟨e, hv, h⟩ | ⟨v, s', o, hv, -, h, hgr, ho, -, e1, e2, e3, -⟩
  · rw [hv] at hE
    have hE : ∀ out, p.Eval env out ↔ out = .raises e := hE
    refine ⟨fun e' => by rw [h, hE]; exact ⟨fun h => by cases h; rfl, fun h => by cases h; rfl⟩, fun x => ?_⟩
    rw [hE]
    constructor
    · intro h; cases h
    · rintro ⟨s', o, h1, -⟩; cases (h _).1 h1
  · rw [hv] at hE
    have hE : ∀ out, p.Eval env out ↔ out = .ret v.obj := hE
    refine ⟨fun e' => by rw [h, hE]; constructor <;> (intro h; cases h), fun x => ?_⟩
    rw [hE]
    constructor
    · intro hx
      cases hx
      refine ⟨s', o, (h _).2 rfl, ho, e1, by rw [e2], by rw [e3], fun o' ho' => ?_⟩
      exact (hI o' ho').get_eq (fun _ _ e => hgr.ints e) (fun _ e => hgr.floats e)
    · rintro ⟨s'', o', h1, h2, rfl, -⟩
      cases (h _).1 h1
      rw [ho] at h2
      have : o = o' := by simpa using h2
      subst this
      rw [e1]

/-! ### What stays -/

/-- Names keep their objects. -/
theorem session_names {env : PyEnv V} (he : env.Ok) {s : Sess V} (hr : Sess.Reach PyEnv.Ok Sess.Tame s) {st : Stmt V} (ht : s.Tame st)
    {s' : Sess V} (h : s.Step env st (.ret s')) {k : Nat} {o : RefObj V} (ho : s.objs[k]? = some o) : s'.objs[k]? = some o := by
  have hI := reach_inv (fun _ h => h) (fun _ _ h => h) hr
  cases hw : st.writes with
  | false =>
    obtain ⟨-, -, r, e⟩ := (step_grows he hI ht hw h).1
    rw [e, List.getElem?_append_left (List.getElem?_eq_some_iff.1 ho).1, ho]
  | true =>
    cases st with
    | setInts a l => exact ht.elim
    | setFloats a l => obtain ⟨_, -, -, rfl⟩ := step_setFloats h; exact ho
    | _ => cases hw

/-- Every statement but a write leaves every object as it is. -/
theorem session_frame {env : PyEnv V} (he : env.Ok) {s : Sess V} (hr : Sess.Reach PyEnv.Ok Sess.Tame s) {st : Stmt V} (ht : s.Tame st)
    (hw : st.writes = false) {s' : Sess V} (h : s.Step env st (.ret s')) {o : RefObj V} (ho : o ∈ s.objs) :
    o.get s' = o.get s ∧ o.now s' = o.now s ∧ o.snap s' = o.snap s := by
  have hI := reach_inv (fun _ h => h) (fun _ _ h => h) hr
  have hg := (step_grows he hI ht hw h).1
  exact ⟨(hI o ho).get_eq (fun _ _ e => hg.ints e) (fun _ e => hg.floats e),
    (hI o ho).now_eq (fun _ _ e => hg.ints e) (fun _ e => hg.floats e),
    (hI o ho).snap_eq (fun _ _ e => hg.ints e) (fun _ e => hg.floats e)⟩

/-- A write to an array of values: it changes the present contents of exactly the objects that hold the array, and only
their values; it never changes the contents at construction of an object with a native copy. -/
theorem session_write {env : PyEnv V} {s : Sess V} (hr : Sess.Reach PyEnv.Ok Sess.Tame s) {a : Nat} {l : List V}
    {s' : Sess V} (h : s.Step env (.setFloats a l) (.ret s')) {o : RefObj V} (ho : o ∈ s.objs) :
    o.now s' = (if o.dataRef = a then (o.now s).withData l else o.now s) ∧
      (o.native = true → o.snap s' = o.snap s) ∧ (o.native = false → o.snap s' = o.now s') := by
  have hok := reach_inv (fun _ h => h) (fun _ _ h => h) hr o ho
  obtain ⟨old, e, hl, rfl⟩ := step_setFloats h
  refine ⟨?_, fun hn => RefObj.snap_eq_of_copied (by rw [hok.copied_eq, hn]) _ _, fun hn => RefObj.snap_eq_now hn _⟩
  have hset := floats_set (l := l) e
  by_cases ha : o.dataRef = a
  · rw [if_pos ha]
    have hfl : (s.floats.set a l)[o.dataRef]? = some l := by rw [hset, if_pos ha]
    cases o with
    | mat f r c p i d hd =>
      cases f <;>
      · show SpVal.mat _ ⟨_, _, s.int p, s.int i, (s.floats.set a l).getD d []⟩ = SpVal.mat _ ⟨_, _, s.int p, s.int i, l⟩
        rw [List.getD_eq_getElem?_getD, show (s.floats.set a l)[d]? = some l from hfl]; rfl
    | coo r c i j d hd =>
      show SpVal.coo ⟨_, _, s.int i, s.int j, (s.floats.set a l).getD d []⟩ = SpVal.coo ⟨_, _, s.int i, s.int j, l⟩
      rw [List.getD_eq_getElem?_getD, show (s.floats.set a l)[d]? = some l from hfl]; rfl
    | nd sh i d =>
      show SpVal.nd ⟨_, s.int i, (s.floats.set a l).getD d []⟩ = SpVal.nd ⟨_, s.int i, l⟩
      rw [List.getD_eq_getElem?_getD, show (s.floats.set a l)[d]? = some l from hfl]; rfl
  · rw [if_neg ha]
    refine hok.now_eq (s' := { s with floats := s.floats.set a l }) (fun _ _ e => e) (fun m hm => ?_)
    show (s.floats.set a l)[o.dataRef]? = _
    rw [hset, if_neg ha, hm]

/-- The result of a function has an array of values of its own: none of the arrays of the session before the call, and
the array of none of its objects.  So a write to an operand does not change the result, nor the reverse. -/
theorem session_fresh {env : PyEnv V} (he : env.Ok) {s : Sess V} (hr : Sess.Reach PyEnv.Ok Sess.Tame s) {st : Stmt V} (ht : s.Tame st)
    (hst : (∃ fn x, st = .call fn x) ∨ (∃ op x y, st = .bin op x y)) {s' : Sess V} (h : s.Step env st (.ret s')) :
    ∃ o, s'.objs = s.objs ++ [o] ∧ s.floats[o.dataRef]? = none ∧ ∀ o' ∈ s.objs, o'.dataRef ≠ o.dataRef := by
  have hI := reach_inv (fun _ h => h) (fun _ _ h => h) hr
  have hd := defined_of_step h
  obtain ⟨p, hp⟩ : ∃ p, s.prog st = some p := by
    rcases prog_isSome hd with h | ⟨l, rfl⟩ | ⟨l, rfl⟩ | hw
    · exact h
    · rcases hst with ⟨_, _, h⟩ | ⟨_, _, _, h⟩ <;> cases h
    · rcases hst with ⟨_, _, h⟩ | ⟨_, _, _, h⟩ <;> cases h
    · rcases hst with ⟨_, _, rfl⟩ | ⟨_, _, _, rfl⟩ <;> cases hw
  rcases step_made he hI ht hd hp with ⟨e, -, h'⟩ | ⟨v, s'', o, -, -, h', -, ho, -, -, -, -, hf⟩
  · cases (h' _).1 h
  · cases (h' _).1 h
    have hf := hf hst
    have hnone : s.floats[o.dataRef]? = none := by rw [hf]; simp
    refine ⟨o, ho, hnone, fun o' ho' e => ?_⟩
    obtain ⟨_, _, D, -, -, -, hD, -⟩ := (hI o' ho').form
    rw [e, hnone] at hD
    cases hD

/-- Without writes both contents are the same. -/
theorem session_unwritten {s : Sess V}
    (hr : Sess.Reach PyEnv.Ok (fun s st => s.Tame st ∧ st.writes = false) s) : ∀ o ∈ s.objs, o.snap s = o.now s := by
  induction hr with
  | start => intro o ho; cases ho
  | @step env s s' st hr' he ht h ih =>
    have hI := reach_inv (fun _ h => h) (fun _ _ h => h.1) hr'
    have hold : ∀ o ∈ s.objs, s.Grows s' → o.snap s' = o.now s' := by
      intro o ho hg
      rw [(hI o ho).now_eq (fun _ _ e => hg.ints e) (fun _ e => hg.floats e),
        (hI o ho).snap_eq (fun _ _ e => hg.ints e) (fun _ e => hg.floats e)]
      exact ih o ho
    have hg := (step_grows he hI ht.1 ht.2 h).1
    rcases prog_isSome (defined_of_step h) with ⟨p, hp⟩ | ⟨l, rfl⟩ | ⟨l, rfl⟩ | hw
    · rcases step_made he hI ht.1 (defined_of_step h) hp with ⟨e, -, h'⟩ | ⟨v, s'', o, -, -, h', -, ho, -, -, e2, e3, -⟩
      · cases (h' _).1 h
      · cases (h' _).1 h
        intro o' ho'
        rw [ho, List.mem_append] at ho'
        rcases ho' with h1 | h1
        · exact hold o' h1 hg
        · rw [List.mem_singleton] at h1; subst h1; rw [e2, e3]
    · cases h; exact fun o ho => hold o ho hg
    · cases h; exact fun o ho => hold o ho hg
    · rw [ht.2] at hw; cases hw

/-! ### Questions -/

section
variable [HasFma V] [HasMinMax V] [HasSqrt V]

/-- Every question is answered from the contents at construction or from the present contents. -/
theorem session_ask {env : PyEnv V} (search : List Int → Int → Nat) {s : Sess V}
    (hr : Sess.Reach PyEnv.Ok Sess.Tame s) {o : RefObj V} (ho : o ∈ s.objs) (q : Query V) (out : PyRes (Answer V)) :
    q.Ask env search (o.get s) out ↔ q.Ask env search (o.view s q.frozen).obj out := by
  have hok := reach_inv (fun _ h => h) (fun _ _ h => h) hr o ho
  rw [ask_views hok.views, view_obj]

/-- After a write to the array of values of an object with a native copy: `sum`, `mean` and the products answer as before,
every other question as for an object constructed from the new values. -/
theorem session_stale {env : PyEnv V} (he : env.Ok) (search : List Int → Int → Nat) {s : Sess V}
    (hr : Sess.Reach PyEnv.Ok Sess.Tame s) {a : Nat} {l : List V} {s' : Sess V} (h : s.Step env (.setFloats a l) (.ret s'))
    {o : RefObj V} (ho : o ∈ s.objs) (ha : o.dataRef = a) (hn : o.native = true) (q : Query V) (out : PyRes (Answer V)) :
    q.Ask env search (o.get s') out ↔
      if q.frozen then q.Ask env search (o.get s) out else q.Ask env search ((o.now s).withData l).obj out := by
  obtain ⟨h1, h2, -⟩ := session_write hr h ho
  have ho' : o ∈ s'.objs := by obtain ⟨_, -, -, rfl⟩ := step_setFloats h; exact ho
  rw [session_ask search (.step hr he (st := .setFloats a l) trivial h) ho']
  unfold RefObj.view
  rw [h1, h2 hn, if_pos ha]
  cases hq : q.frozen
  · simp only [Bool.false_eq_true, if_false]
  · simp only [if_true]
    rw [session_ask search hr ho]
    unfold RefObj.view
    rw [hq, if_pos rfl]

/-- Functions that use the native copy do not depend on the arrays at all: whatever is written to them (indices
included), their outcomes are those at construction. -/
theorem frozen_immune {env : PyEnv V} (search : List Int → Int → Nat) {o : RefObj V} (hc : o.copied = true) (s s' : Sess V) :
    (∀ (fn : Fn V) out, fn.frozen = true → (fn.Call env (o.get s) out ↔ fn.Call env (o.get s') out)) ∧
    (∀ (q : Query V) out, q.frozen = true → (q.Ask env search (o.get s) out ↔ q.Ask env search (o.get s') out)) ∧
    ∀ (o' : RefObj V) (op : BinOp) out, o'.copied = true → op.frozen = true →
      (BinObj env op (o.get s) (o'.get s) out ↔ BinObj env op (o.get s') (o'.get s') out) := by
  refine ⟨fun fn out h => call_sameCopy (sameCopy hc s s') env h out, fun q out h => ask_sameCopy (sameCopy hc s s') env search h out,
    fun o' op out hc' h => bin_sameCopy (sameCopy hc s s') (sameCopy hc' s s') env h out⟩

end

/-! ### Exact arithmetic -/

section
variable {V : Type} [Field V] [LinearOrder V] [IsStrictOrderedRing V] [FloorRing V] [BEq V] [LawfulBEq V] [HasFinite V]
  [HasFloor V] [HasPowf V] [HasAbs V] [HasLt V] [HasNan V] [IdealOrd V]

/-- In exact arithmetic, the cells of the new object are those that the program denotes (`Prog.cells` of C74). -/
theorem session_exact (hfin : ∀ v : V, isFinite v = true) (hfl : ∀ v : V, HasFloor.floor v = (⌊v⌋ : V)) {env : PyEnv V}
    (he : env.Ok) {s : Sess V} (hr : Sess.Reach PyEnv.Ok Sess.Tame s) {st : Stmt V} (ht : s.Tame st) (hd : s.Defined st) {p : Prog V}
    (hp : s.prog st = some p) (hx : p.Exact) {τ : Ty} (hc : p.check = .ok τ) :
    ∃ s' o, (∀ out, s.Step env st out ↔ out = .ret s') ∧ s'.objs = s.objs ++ [o] ∧ (o.now s').ty = τ ∧ o.snap s' = o.now s' ∧
      ∀ i, InBounds τ.shape i → (o.now s').cell i = p.cells i := by
  have hI := reach_inv (fun _ h => h) (fun _ _ h => h) hr
  obtain ⟨hl, hs⟩ := tame_prog hI ht hd hp
  have hstep := Prog.step he hl hs
  rcases step_made he hI ht hd hp with ⟨e, hv, h⟩ | ⟨v, s', o, hv, -, h, -, ho, -, -, e2, e3, -⟩
  · have h1 := hstep.1
    rw [hc, hv] at h1
    obtain ⟨w, e1, -⟩ := h1
    cases e1
  · obtain ⟨-, hty, -⟩ := hstep.good hs hv
    rw [hc] at hty
    cases hty
    exact ⟨s', o, h, ho, by rw [e2], by rw [e2, e3], fun i hi => by rw [e2]; exact (Prog.value_cells hfin hfl he hl hs hv).2 hx i hi⟩

/-- The constructor call with the contents of an object denotes these contents. -/
theorem session_lit_cells (hfin : ∀ v : V, isFinite v = true) (hfl : ∀ v : V, HasFloor.floor v = (⌊v⌋ : V)) {env : PyEnv V}
    (he : env.Ok) {s : Sess V} (hr : Sess.Reach PyEnv.Ok Sess.Tame s) {o : RefObj V} (ho : o ∈ s.objs) (frozen : Bool) {i : List Int}
    (hi : InBounds (o.now s).ty.shape i) : (o.view s frozen).lit.cells i = (o.view s frozen).cell i := by
  have hok := reach_inv (fun _ h => h) (fun _ _ h => h) hr o ho
  have hg := hok.good frozen
  have hex : (o.view s frozen).lit.Exact := by cases o.view s frozen <;> trivial
  exact ((Prog.value_cells hfin hfl he (lit_litsOk hg) (lit_small hg) (lit_value hg env)).2 hex i (by
    rw [hok.ty_eq frozen]; exact hi)).symm

end

/-! ### Two objects in one -/

section
/-- A session with one `CSR` object of shape `(2, 3)` and one stored value `v`. -/
def oneEntry (v : V) : Sess V :=
  ⟨[[0, 1, 1], [0]], [[v]], [.mat .csr 2 3 0 1 0 (some ⟨2, 3, [0, 1, 1], [0], [v]⟩)]⟩

theorem oneEntry_reach (env : PyEnv V) (v : V) : Sess.Reach (· = env) (fun s st => s.Tame st ∧ st.writes = false) (oneEntry v) := by
  refine .step (s := ⟨[[0, 1, 1], [0]], [[v]], []⟩) (st := .mat .csr 2 3 0 1 0) ?_ rfl ⟨⟨⟨?_, by simp⟩, ?_⟩, rfl⟩ ?_
  · refine .step (s := ⟨[[0, 1, 1], [0]], [], []⟩) (st := .floats [v]) ?_ rfl ⟨trivial, rfl⟩ rfl
    refine .step (s := ⟨[[0, 1, 1]], [], []⟩) (st := .ints [0]) ?_ rfl ⟨trivial, rfl⟩ rfl
    exact .step (s := ⟨[], [], []⟩) (st := .ints [0, 1, 1]) .start rfl ⟨trivial, rfl⟩ rfl
  · show ∀ j ∈ [(0 : Int)], j ≤ i64Max; decide
  · show Ty.SizeOk 1 (.mat .csr 2 3); decide
  · exact ⟨_, _, _, rfl, rfl, rfl, rfl⟩

theorem Sess.Reach.imp {envs envs' : PyEnv V → Prop} (he : ∀ env, envs env → envs' env) {ok ok' : Sess V → Stmt V → Prop}
    (h : ∀ s st, ok s st → ok' s st) {s : Sess V} (hr : Sess.Reach envs ok s) : Sess.Reach envs' ok' s := by
  induction hr with
  | start => exact .start
  | step _ hm ht hs ih => exact .step ih (he _ hm) (h _ _ ht) hs

/-- C81 (negative): after `x.data[...] = [w]` the object is two matrices.  `x.toarray()` and `abs(x)` show `w`, `x.T` shows the
old value. -/
theorem stale_disagree [HasFma V] [HasMinMax V] [HasSqrt V] {env : PyEnv V} (he : env.Ok) (search : List Int → Int → Nat) (v w : V) :
    ∃ s o, Sess.Reach (· = env) Sess.Tame s ∧ s.objs = [o] ∧
      (∀ out, (Query.toarray : Query V).Ask env search (o.get s) out ↔ out = .ret (.array ⟨[2, 3], [w, 0, 0, 0, 0, 0]⟩)) ∧
      (∀ out, (Fn.un .abs).Call env (o.get s) out ↔ out = .ret (SpVal.mat .csr ⟨2, 3, [0, 1, 1], [0], [fabs w]⟩).obj) ∧
      (∀ out, Fn.T.Call env (o.get s) out ↔ out = .ret (SpVal.mat .csr ⟨3, 2, [0, 1, 1, 1], [0], [v]⟩).obj) := by
  have hr : Sess.Reach (· = env) Sess.Tame { oneEntry v with floats := [[w]] } :=
    .step (s := oneEntry v) (st := .setFloats 0 [w]) ((oneEntry_reach env v).imp (fun _ h => h) fun _ _ h => h.1) rfl trivial ⟨_, rfl, rfl⟩
  have hok := reach_inv (by rintro _ rfl; exact he) (fun _ _ h => h) hr _ (List.mem_singleton.2 rfl)
  have hsz : Ty.SizeOk 1 (.mat .csr 2 3) := by decide
  have hszT : Ty.SizeOk 1 (.mat .csr 3 2) := by decide
  refine ⟨_, _, hr, rfl, fun out => Iff.rfl, fun out => ?_, fun out => ?_⟩
  · rw [call_views hok.views, ← view_obj, ← on_eval (hok.good _) he]
    exact (Prog.step he (on_litsOk (hok.good false) (.un .abs)) (on_small (fn := .un .abs) (hok.good false) hsz)).2 out
  · rw [call_views hok.views, ← view_obj, ← on_eval (hok.good _) he]
    exact (Prog.step he (on_litsOk (hok.good true) .T) (on_small (fn := .T) (hok.good true) hszT)).2 out

/-- C81 (negative): writing to an array of indices of a validated object makes `remainder(x, x)` and `pow(x, x)` read outside the arrays
(release build). -/
theorem index_write_ub {env : PyEnv V} (hdbg : env.dbg = false) (op : BinOp) (hop : op = .rem ∨ op = .pow) (v : V) :
    ∃ s, Sess.Reach (· = env) (fun s st => s.Tame st ∨ ∃ a l, st = .setInts a l) s ∧ ∀ out, s.Step env (.bin op 0 0) out ↔ out = .ub := by
  refine ⟨{ oneEntry v with ints := [[0, 5, 1], [0]] }, .step (s := oneEntry v) (st := .setInts 0 [0, 5, 1])
    ((oneEntry_reach env v).imp (fun _ h => h) fun _ _ h => .inl h.1) rfl (.inr ⟨_, _, rfl⟩) ⟨_, rfl, rfl⟩, fun out => ?_⟩
  have hx : RefObj.get { oneEntry v with ints := [[0, 5, 1], [0]] } (.mat .csr 2 3 0 1 0 (some ⟨2, 3, [0, 1, 1], [0], [v]⟩)) =
      .mat .csr ⟨2, 3, [0, 5, 1], [0], [v], some ⟨2, 3, [0, 1, 1], [0], [v]⟩⟩ := rfl
  have key : ∀ r, BinObj env op (.mat .csr ⟨2, 3, [0, 5, 1], [0], [v], some ⟨2, 3, [0, 1, 1], [0], [v]⟩⟩)
      (.mat .csr ⟨2, 3, [0, 5, 1], [0], [v], some ⟨2, 3, [0, 1, 1], [0], [v]⟩⟩) r ↔ r = .ub := by
    intro r
    have hm : ∀ o, BinMethod env.dbg .csr op (⟨2, 3, [0, 5, 1], [0], [v], some ⟨2, 3, [0, 1, 1], [0], [v]⟩⟩ : PyMat V)
        ⟨2, 3, [0, 5, 1], [0], [v], some ⟨2, 3, [0, 1, 1], [0], [v]⟩⟩ o ↔ o = .ub := by
      intro o
      rw [hdbg]
      unfold BinMethod
      rw [show operands .csr (binPath .csr op) (⟨2, 3, [0, 5, 1], [0], [v], some ⟨2, 3, [0, 1, 1], [0], [v]⟩⟩ : PyMat V)
        ⟨2, 3, [0, 5, 1], [0], [v], some ⟨2, 3, [0, 1, 1], [0], [v]⟩⟩ = .ok (jump v, jump v) by
          rcases hop with rfl | rfl <;> rfl]
      show (∃ o', _ ∧ o = _) ↔ _
      simp only [jump_run, exists_eq_left]
      rfl
    simp only [BinObj, if_true, hm, exists_eq_left]
    exact Iff.rfl
  constructor
  · rintro ⟨o, o', h1, h2, r, h3, rfl⟩
    cases h1; cases h2
    rw [hx, key] at h3
    rw [h3]; rfl
  · rintro rfl
    exact ⟨_, _, rfl, rfl, .ub, by rw [hx, key], rfl⟩

/-- In a debug build the same read outside the arrays is among the outcomes. -/
theorem index_write_ub_debug {env : PyEnv V} (hdbg : env.dbg = true) (op : BinOp) (hop : op = .rem ∨ op = .pow) (v : V) :
    Sess.Step env { oneEntry v with ints := [[0, 5, 1], [0]] } (.bin op 0 0) .ub := by
  refine ⟨_, _, rfl, rfl, .ub, ?_, rfl⟩
  show BinObj env op (.mat .csr ⟨2, 3, [0, 5, 1], [0], [v], some ⟨2, 3, [0, 1, 1], [0], [v]⟩⟩)
    (.mat .csr ⟨2, 3, [0, 5, 1], [0], [v], some ⟨2, 3, [0, 1, 1], [0], [v]⟩⟩) .ub
  simp only [BinObj, if_true]
  refine ⟨.ub, ?_, rfl⟩
  rw [hdbg]
  unfold BinMethod
  rw [show operands .csr (binPath .csr op) (⟨2, 3, [0, 5, 1], [0], [v], some ⟨2, 3, [0, 1, 1], [0], [v]⟩⟩ : PyMat V)
    ⟨2, 3, [0, 5, 1], [0], [v], some ⟨2, 3, [0, 1, 1], [0], [v]⟩⟩ = .ok (jump v, jump v) by
      rcases hop with rfl | rfl <;> rfl]
  refine ⟨.error .ub, ⟨2, fun N hN => ?_⟩, rfl⟩
  obtain ⟨F, rfl⟩ : ∃ F, N = F + 2 := ⟨N - 2, by omega⟩
  show BinPtrRun true (op.countP (F + 2)) (op.fillP (F + 2)) (jump v) (jump v) (.error .ub)
  unfold BinPtrRun
  rw [if_pos ⟨rfl, rfl⟩]
  refine ⟨.error .ub, ⟨0, by show 0 < 2; omega, ?_⟩, rfl⟩
  cases op <;> rfl

end

/-! ### examples -/

section
attribute [local instance] meaningHasFinite meaningHasFloor meaningHasPowf meaningHasLt meaningHasAbs meaningHasNan meaningIdealOrd

/-- A `CSR` of shape `(2, 3)` and a `CSC` of shape `(3, 2)` on the same three arrays. -/
def exShared : Sess ℚ :=
  ⟨[[0, 2, 3], [0, 2, 1]], [[5, 6, 7]],
    [.mat .csr 2 3 0 1 0 (some ⟨2, 3, [0, 2, 3], [0, 2, 1], [5, 6, 7]⟩),
     .mat .csc 3 2 0 1 0 (some ⟨2, 3, [0, 2, 3], [0, 2, 1], [5, 6, 7]⟩)]⟩

theorem exShared_reach (env : PyEnv ℚ) : Sess.Reach (· = env) (fun s st => s.Tame st ∧ st.writes = false) exShared := by
  refine .step (s := ⟨[[0, 2, 3], [0, 2, 1]], [[5, 6, 7]], [.mat .csr 2 3 0 1 0 (some ⟨2, 3, [0, 2, 3], [0, 2, 1], [5, 6, 7]⟩)]⟩)
    (st := .mat .csc 3 2 0 1 0) ?_ rfl ⟨⟨⟨?_, fun _ => ⟨_, rfl⟩⟩, ?_⟩, rfl⟩ ⟨_, _, _, rfl, rfl, rfl, rfl⟩
  · refine .step (s := ⟨[[0, 2, 3], [0, 2, 1]], [[5, 6, 7]], []⟩) (st := .mat .csr 2 3 0 1 0) ?_ rfl ⟨⟨⟨?_, by simp⟩, ?_⟩, rfl⟩
      ⟨_, _, _, rfl, rfl, rfl, rfl⟩
    · refine .step (s := ⟨[[0, 2, 3], [0, 2, 1]], [], []⟩) (st := .floats [5, 6, 7]) ?_ rfl ⟨trivial, rfl⟩ rfl
      refine .step (s := ⟨[[0, 2, 3]], [], []⟩) (st := .ints [0, 2, 1]) ?_ rfl ⟨trivial, rfl⟩ rfl
      exact .step (s := ⟨[], [], []⟩) (st := .ints [0, 2, 3]) .start rfl ⟨trivial, rfl⟩ rfl
    · show ∀ j ∈ [(0 : Int), 2, 1], j ≤ i64Max; decide
    · show Ty.SizeOk 3 (.mat .csr 2 3); decide
  · show ∀ j ∈ [(0 : Int), 2, 1], j ≤ i64Max; decide
  · show Ty.SizeOk 3 (.mat .csc 3 2); decide

/-- The same after `a[...] = [1, -2, 3]`, where `a` is the array of values of both. -/
def exWritten : Sess ℚ := { exShared with floats := [[1, -2, 3]] }

theorem exWritten_reach {env : PyEnv ℚ} (he : env.Ok) : Sess.Reach PyEnv.Ok Sess.Tame exWritten :=
  .step (s := exShared) (st := .setFloats 0 [1, -2, 3])
    ((exShared_reach env).imp (by rintro _ rfl; exact he) fun _ _ h => h.1) he trivial ⟨_, rfl, rfl⟩

example (env : PyEnv ℚ) : exShared.Step env (.setFloats 0 [1, -2, 3]) (.ret exWritten) := ⟨_, rfl, rfl⟩

/-- The write changes both objects, and the copy of neither. -/
example : exWritten.objs.map (·.now exWritten) =
      [.mat .csr ⟨2, 3, [0, 2, 3], [0, 2, 1], [1, -2, 3]⟩, .mat .csc ⟨2, 3, [0, 2, 3], [0, 2, 1], [1, -2, 3]⟩] ∧
    exWritten.objs.map (·.snap exWritten) = exShared.objs.map (·.snap exShared) ∧
    exShared.objs.map (·.snap exShared) = exShared.objs.map (·.now exShared) ∧
    exShared.objs.map (·.dataRef) = [0, 0] := ⟨rfl, rfl, rfl, rfl⟩

example (dbg : Bool) : ∀ o ∈ exShared.objs, o.snap exShared = o.now exShared :=
  session_unwritten ((exShared_reach (exEnvQ dbg)).imp (by rintro _ rfl; exact exEnvQ_ok dbg) fun _ _ h => h)

/-- `x + x` uses the values at construction: its cells are 10, 12 and 14. -/
example (dbg : Bool) : ∃ s o, (∀ out, exWritten.Step (exEnvQ dbg) (.bin .add 0 0) out ↔ out = .ret s) ∧
    s.objs = exWritten.objs ++ [o] ∧ (o.now s).ty = .mat .csr 2 3 ∧ (o.now s).cell [0, 0] = 10 ∧ (o.now s).cell [0, 2] = 12 := by
  obtain ⟨s, o, h1, h2, h3, -, h5⟩ := session_exact (fun _ => rfl) (fun _ => rfl) (exEnvQ_ok dbg) (exWritten_reach (exEnvQ_ok dbg))
    (st := .bin .add 0 0) (p := .bin .add (.mat .csr 2 3 [0, 2, 3] [0, 2, 1] [5, 6, 7]) (.mat .csr 2 3 [0, 2, 3] [0, 2, 1] [5, 6, 7]))
    (τ := .mat .csr 2 3) (fun o o' h h' => by cases h; cases h'; show Ty.SizeOk 6 (.mat .csr 2 3); decide)
    ⟨by decide, by decide⟩ rfl ⟨trivial, trivial, by decide⟩ rfl
  refine ⟨s, o, h1, h2, h3, ?_, ?_⟩
  · rw [h5 _ (.cons (by decide) (.cons (by decide) .nil))]; decide +kernel
  · rw [h5 _ (.cons (by decide) (.cons (by decide) .nil))]; decide +kernel

/-- `abs(x)` uses the present values. -/
example (dbg : Bool) : ∃ s o, (∀ out, exWritten.Step (exEnvQ dbg) (.call (.un .abs) 1) out ↔ out = .ret s) ∧
    s.objs = exWritten.objs ++ [o] ∧ (o.now s).ty = .mat .csc 3 2 ∧ (o.now s).cell [2, 0] = 2 := by
  obtain ⟨s, o, h1, h2, h3, -, h5⟩ := session_exact (fun _ => rfl) (fun _ => rfl) (exEnvQ_ok dbg) (exWritten_reach (exEnvQ_ok dbg))
    (st := .call (.un .abs) 1) (p := .un .abs (.mat .csc 3 2 [0, 2, 3] [0, 2, 1] [1, -2, 3])) (τ := .mat .csc 3 2)
    (fun o h => by cases h; show Ty.SizeOk 3 (.mat .csc 3 2); decide) (by show 1 < 2; decide) rfl ⟨trivial, fun _ => trivial⟩ rfl
  refine ⟨s, o, h1, h2, h3, ?_⟩
  rw [h5 _ (.cons (by decide) (.cons (by decide) .nil))]; decide +kernel

/-- `sum` of the written object is that of the old values; `toarray` shows the new ones. -/
example (dbg : Bool) [HasFma ℚ] [HasMinMax ℚ] [HasSqrt ℚ] (out : PyRes (Answer ℚ)) :
    ((Query.toarray : Query ℚ).Ask (exEnvQ dbg) bisectLeft ((RefObj.mat .csr 2 3 0 1 0
      (some ⟨2, 3, [0, 2, 3], [0, 2, 1], [5, 6, 7]⟩)).get exWritten) out ↔ out = .ret (.array ⟨[2, 3], [1, 0, -2, 0, 3, 0]⟩)) ∧
    ((Query.reduce .sum .none false : Query ℚ).Ask (exEnvQ dbg) bisectLeft ((RefObj.mat .csr 2 3 0 1 0
      (some ⟨2, 3, [0, 2, 3], [0, 2, 1], [5, 6, 7]⟩)).get exWritten) out ↔
     (Query.reduce .sum .none false : Query ℚ).Ask (exEnvQ dbg) bisectLeft ((RefObj.mat .csr 2 3 0 1 0
      (some ⟨2, 3, [0, 2, 3], [0, 2, 1], [5, 6, 7]⟩)).get exShared) out) := by
  have hr := (exShared_reach (exEnvQ dbg)).imp (envs' := PyEnv.Ok) (ok' := Sess.Tame)
    (by rintro _ rfl; exact exEnvQ_ok dbg) fun _ _ h => h.1
  have hw : exShared.Step (exEnvQ dbg) (.setFloats 0 [1, -2, 3]) (.ret exWritten) := ⟨_, rfl, rfl⟩
  have ho : RefObj.mat .csr 2 3 0 1 0 (some ⟨2, 3, [0, 2, 3], [0, 2, 1], [5, 6, 7]⟩) ∈ exShared.objs := List.mem_cons_self
  refine ⟨?_, ?_⟩
  · rw [session_stale (exEnvQ_ok dbg) bisectLeft hr hw ho rfl rfl]
    exact Iff.rfl
  · rw [session_stale (exEnvQ_ok dbg) bisectLeft hr hw ho rfl rfl]
    exact Iff.rfl

end

end Lacuna
