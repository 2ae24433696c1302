import Verif.Spec.PyGil
import Verif.Lemmas.PySession
import Verif.Props.PyDot
import Verif.Lemmas.PyDotNdSize
/-
Python threads: what holds of the arrays, the objects and the running calls in every reachable state.
-/
set_option linter.unusedSectionVars false

namespace Lacuna
variable {V : Type}
variable [Zero V] [One V] [Add V] [Sub V] [Mul V] [Div V] [Neg V] [BEq V] [NatCast V] [HasFinite V]
  [HasFloor V] [HasPowf V] [HasAbs V] [HasLt V] [HasNan V] [HasFma V]

/-! ### running calls -/

/-- A running call evaluates a program, or a product with a dense array. -/
def Job.Ok (s : Sess V) : Job V → Prop
  | .call fn x => ∃ p : Prog V, p.LitsOk ∧ p.Small ∧ ∀ env : PyEnv V, env.Ok → ∀ out, fn.Call env x out ↔ p.Eval env out
  | .bin op x y => ∃ p : Prog V, p.LitsOk ∧ p.Small ∧ ∀ env : PyEnv V, env.Ok → ∀ out, BinObj env op x y out ↔ p.Eval env out
  | .lin fn x shape b y => (fn.borrows x shape = true →
        (∀ env : PyEnv V, env.Ok → ∀ e, ¬ LinSparseDense env fn x ⟨shape, y⟩ (.raises e)) → s.floats[b]? = some y) ∧
      ∃ v : SpVal V, v.Good ∧ LinFits fn v (⟨shape, y⟩ : DenseNd V) ∧
        ∀ env : PyEnv V, ∀ out, LinSparseDense env fn x ⟨shape, y⟩ out ↔ LinSparseDense env fn v.obj ⟨shape, y⟩ out

theorem PyRes.bind_lin_inj {a b : PyRes (LinRes V)} (h : (a.bind fun r => .ret (Answer.lin r)) = b.bind fun r => .ret (Answer.lin r)) :
    a = b := by
  cases a <;> cases b <;> first | rfl | (cases h; rfl) | cases h

/-- A product with a dense array sees the native copy or the arrays. -/
theorem lin_views [HasMinMax V] [HasSqrt V] {x p n : PyObj V} (h : Views x p n) (env : PyEnv V) (fn : LinFn) (y : DenseNd V)
    (out : PyRes (LinRes V)) : LinSparseDense env fn x y out ↔
      LinSparseDense env fn (if (Query.linalg fn y : Query V).frozen then p else n) y out := by
  have key := ask_views h env (fun _ _ => 0) (.linalg fn y) (out.bind fun r => .ret (.lin r))
  have red : ∀ z : PyObj V, (Query.linalg fn y : Query V).Ask env (fun _ _ => 0) z (out.bind fun r => .ret (.lin r)) ↔
      LinSparseDense env fn z y out := by
    intro z
    constructor
    · rintro ⟨o, ho, he⟩
      rw [PyRes.bind_lin_inj he]
      exact ho
    · exact fun ho => ⟨out, ho, rfl⟩
  rwa [red, red] at key

/-- A step of the session that keeps the arrays. -/
theorem Job.Ok.mono {s s' : Sess V} {j : Job V} (h : j.Ok s)
    (hf : ∀ b, j.borrowed = some b → (∀ env : PyEnv V, env.Ok → ∀ x, ¬ j.Run env (.raises x)) → ∀ l, s.floats[b]? = some l → s'.floats[b]? = some l) : j.Ok s' := by
  cases j with
  | call fn x => exact h
  | bin op x y => exact h
  | lin fn x shape b y =>
    refine ⟨fun hb hn => hf b ?_ hn _ (h.1 hb hn), h.2⟩
    show (if fn.borrows x shape then some b else none) = some b
    rw [if_pos hb]

/-- All is well. -/
structure PyThreads.Inv (m : PyThreads V) : Prop where
  sess : m.sess.Inv
  jobs : ∀ j ∈ m.jobs, j.Ok m.sess

theorem give_dense_grows (s : Sess V) (d : DenseNd V) : s.Grows (s.give (.dense d)) :=
  ⟨⟨[], (List.append_nil _).symm⟩, ⟨_, rfl⟩, ⟨[], (List.append_nil _).symm⟩⟩

theorem grows_inv_of_objs {s s' : Sess V} (h : s.Grows s') (ho : s'.objs = s.objs) (hI : s.Inv) : s'.Inv := fun o hm => by
  rw [ho] at hm
  exact h.ok (hI o hm)

theorem alloc_inv {s : Sess V} (hI : s.Inv) {v : SpVal V} (hg : v.Good) : (s.alloc v.obj).Inv := by
  obtain ⟨o, e1, e2, -⟩ := alloc_new s hg
  intro o' hm
  rw [e1, List.mem_append] at hm
  rcases hm with h | h
  · exact (alloc_grows s v).ok (hI o' h)
  · rw [List.mem_singleton] at h; subst h; exact e2

/-! ### the outcome of a running call -/

/-- A call with sparse operands. -/
theorem sparse_run {env : PyEnv V} (he : env.Ok) {p : Prog V} (hl : p.LitsOk) (hs : p.Small) {R : PyRes (PyObj V) → Prop}
    (hR : ∀ out, R out ↔ p.Eval env out) :
    (∃ v : SpVal V, v.Good ∧ p.Eval env (.ret v.obj) ∧
      ∀ r : PyRes (LinRes V), (∃ o, R o ∧ r = o.bind fun y => .ret (.sparse y)) ↔ r = .ret (.sparse v.obj)) ∨
    (∃ e, p.Eval env (.raises e) ∧ ∀ r : PyRes (LinRes V), (∃ o, R o ∧ r = o.bind fun y => .ret (.sparse y)) ↔ r = .raises e) := by
  have hst := Prog.step he hl hs
  cases hv : p.value env with
  | error e =>
    refine .inr ⟨e, by rw [hst.2, hv]; rfl, fun r => ?_⟩
    simp only [hR, hst.2, hv, exists_eq_left]
    exact Iff.rfl
  | ok v =>
    obtain ⟨hg, -, -⟩ := hst.good hs hv
    refine .inl ⟨v, hg, by rw [hst.2, hv]; rfl, fun r => ?_⟩
    simp only [hR, hst.2, hv, exists_eq_left]
    exact Iff.rfl

/-- A product with a dense operand. -/
theorem lin_run (hm : ∀ x y : V, x * y = y * x) {env : PyEnv V} (henv : env.Ok) {v : SpVal V} (hg : v.Good) {fn : LinFn}
    {y : DenseNd V} (hf : LinFits fn v y) : (∃ r, LinSparseDense env fn v.obj y r) ∧
      ∀ r, LinSparseDense env fn v.obj y r →
        (∃ w : SpVal V, w.Good ∧ r = .ret (.sparse w.obj)) ∨ (∃ d, r = .ret (.dense d)) ∨ ∃ e, r = .raises e := by
  obtain ⟨hy, hsz, hnd⟩ := hf
  by_cases h2 : v.ty.Is2d
  · obtain ⟨x, a, e1, e2, hx, hva, hfa, hsh⟩ := SpVal.Good.sp hg h2
    cases he : fn.error x.nrows x.ncols y.shape with
    | some e =>
      have := py_linalg_raises env fn e1 hy.1 he
      exact ⟨⟨_, (this _).2 rfl⟩, fun r hr => .inr (.inr ⟨e, (this r).1 hr⟩)⟩
    | none =>
      obtain ⟨hr, hc, -, -⟩ := hx
      rw [hr, hc] at he
      obtain ⟨tr, q, hcon, hyq⟩ := (linFn_error_none fn a.rows a.cols y.shape).1 he
      have hrc : (if tr then v.ty.shape.reverse else v.ty.shape) =
          [if tr then a.cols else a.rows, if tr then a.rows else a.cols] := by rw [hsh]; cases tr <;> rfl
      obtain ⟨hpos, h8⟩ := hsz h2 tr q _ _ hcon hrc hyq
      obtain ⟨h1, h3⟩ := py_linalg_any hm env hg.1 hg.2 h2 hy hcon hrc hyq hpos h8
      exact ⟨h1, fun r hr => by obtain ⟨d, e, -⟩ := h3 r hr; exact .inr (.inl ⟨d, e⟩)⟩
  · cases v with
    | mat f a => exact absurd trivial h2
    | coo a => exact absurd trivial h2
    | nd a =>
      cases he : fn.ndError a.shape y.shape with
      | some e =>
        have := py_linalg_nd_raises env fn hg.1 hg.2 he
        exact ⟨⟨_, (this _).2 rfl⟩, fun r hr => .inr (.inr ⟨e, (this r).1 hr⟩)⟩
      | none =>
        obtain ⟨axis, rest, hax, hcon, hys, hv⟩ := (linFn_ndError_none fn a.shape y.shape).1 he
        obtain ⟨hpos, hcells, hmem⟩ := hnd a.shape rfl axis rest hax hcon hys
        cases fn with
        | matmul => exact hcon.elim
        | tensordot axes =>
          obtain ⟨r, hr, -, h⟩ := tensordot_nd_good henv hg hax hcon hy hys hpos hcells hmem
          exact ⟨⟨_, (h _).2 rfl⟩, fun o ho => .inl ⟨_, hr, (h o).1 ho⟩⟩
        | vecdot ax =>
          obtain ⟨rfl, h1⟩ := hv ax rfl
          obtain ⟨r, hr, -, h⟩ := vecdot_nd_good henv hg hax h1 hcon hy hys
          exact ⟨⟨_, (h _).2 rfl⟩, fun o ho => .inl ⟨_, hr, (h o).1 ho⟩⟩

/-- Leaving the binding of a running call: the call has an outcome, and every outcome is a result or an exception. -/
theorem job_run (hm : ∀ x y : V, x * y = y * x) {env : PyEnv V} (he : env.Ok) {s : Sess V} {j : Job V} (hj : j.Ok s) :
    (∃ r, j.Run env r) ∧ ∀ r, j.Run env r →
      (∃ v : SpVal V, v.Good ∧ r = .ret (.sparse v.obj)) ∨ (∃ d, r = .ret (.dense d)) ∨ ∃ e, r = .raises e := by
  cases j with
  | call fn x =>
    obtain ⟨p, hl, hs, h⟩ := hj
    rcases sparse_run he hl hs (h env he) with ⟨v, hg, -, h1⟩ | ⟨e, -, h1⟩
    · exact ⟨⟨_, (h1 _).2 rfl⟩, fun r hr => .inl ⟨v, hg, (h1 r).1 hr⟩⟩
    · exact ⟨⟨_, (h1 _).2 rfl⟩, fun r hr => .inr (.inr ⟨e, (h1 r).1 hr⟩)⟩
  | bin op x y =>
    obtain ⟨p, hl, hs, h⟩ := hj
    rcases sparse_run he hl hs (h env he) with ⟨v, hg, -, h1⟩ | ⟨e, -, h1⟩
    · exact ⟨⟨_, (h1 _).2 rfl⟩, fun r hr => .inl ⟨v, hg, (h1 r).1 hr⟩⟩
    · exact ⟨⟨_, (h1 _).2 rfl⟩, fun r hr => .inr (.inr ⟨e, (h1 r).1 hr⟩)⟩
  | lin fn x shape b y =>
    obtain ⟨-, v, hg, hf, h⟩ := hj
    obtain ⟨⟨r, hr⟩, h1⟩ := lin_run hm he hg hf
    exact ⟨⟨r, (h env r).2 hr⟩, fun r hr => h1 r ((h env r).1 hr)⟩

/-! ### entering a binding -/

theorem call_ok {s : Sess V} (hI : s.Inv) {fn : Fn V} {x : Nat} (ht : s.Tame (.call fn x)) {o : RefObj V} (ho : s.objs[x]? = some o) :
    (fn.on (o.view s fn.frozen).lit).LitsOk ∧ (fn.on (o.view s fn.frozen).lit).Small ∧ ∀ env : PyEnv V, env.Ok → ∀ out,
      fn.Call env (o.get s) out ↔ (fn.on (o.view s fn.frozen).lit).Eval env out := by
  have hok := hI o (List.mem_of_getElem? ho)
  refine ⟨on_litsOk (hok.good _) fn, on_small (hok.good _) (ht o ho), fun env he out => ?_⟩
  rw [on_eval (hok.good _) he, call_views hok.views, view_obj]

theorem bin_ok {s : Sess V} (hI : s.Inv) {op : BinOp} {x y : Nat} (ht : s.Tame (.bin op x y)) {o o' : RefObj V}
    (ho : s.objs[x]? = some o) (ho' : s.objs[y]? = some o') :
    (Prog.bin op (o.view s op.frozen).lit (o'.view s op.frozen).lit).LitsOk ∧
    (Prog.bin op (o.view s op.frozen).lit (o'.view s op.frozen).lit).Small ∧ ∀ env : PyEnv V, env.Ok → ∀ out,
      BinObj env op (o.get s) (o'.get s) out ↔ (Prog.bin op (o.view s op.frozen).lit (o'.view s op.frozen).lit).Eval env out := by
  have hok := hI o (List.mem_of_getElem? ho)
  have hok' := hI o' (List.mem_of_getElem? ho')
  obtain ⟨hl, hs⟩ := tame_prog hI ht (⟨(List.getElem?_eq_some_iff.1 ho).1, (List.getElem?_eq_some_iff.1 ho').1⟩)
    (p := Prog.bin op (o.view s op.frozen).lit (o'.view s op.frozen).lit) (by simp [Sess.prog, ho, ho'])
  refine ⟨hl, hs, fun env he out => ?_⟩
  rw [bin_eval (hok.good _) (hok'.good _) he, bin_views hok.views hok'.views, view_obj, view_obj]

theorem lin_ok [HasMinMax V] [HasSqrt V] {s : Sess V} (hI : s.Inv) {fn : LinFn} {x : Nat} {o : RefObj V} (ho : s.objs[x]? = some o)
    {y : DenseNd V} (hf : LinFits fn (o.now s) y) :
    (o.view s (Query.linalg fn y : Query V).frozen).Good ∧ LinFits fn (o.view s (Query.linalg fn y : Query V).frozen) y ∧
      ∀ env : PyEnv V, ∀ out, LinSparseDense env fn (o.get s) y out ↔
        LinSparseDense env fn (o.view s (Query.linalg fn y : Query V).frozen).obj y out := by
  have hok := hI o (List.mem_of_getElem? ho)
  refine ⟨hok.good _, ⟨hf.1, by rw [hok.ty_eq]; exact hf.2.1, fun sh hsh => ?_⟩, fun env out => ?_⟩
  · rw [hok.ty_eq] at hsh
    have hv : o.view s (Query.linalg fn y : Query V).frozen = o.now s := by
      cases o with
      | mat f r c p i d h => cases f <;> cases hsh
      | coo r c i j d h => cases hsh
      | nd sh' i d => unfold RefObj.view; split <;> rfl
    rw [hv]
    exact hf.2.2 sh hsh
  rw [lin_views hok.views, view_obj]

/-! ### every step -/

theorem plain_grows {env : PyEnv V} (he : env.Ok) {s : Sess V} (hI : s.Inv) {st : Stmt V} (ht : s.Tame st) {s' : Sess V}
    (h : s.Step env st (.ret s')) {b : Nat} (hb : ∀ l, st ≠ .setFloats b l) {l : List V} (hl : s.floats[b]? = some l) :
    s'.floats[b]? = some l := by
  cases hw : st.writes with
  | false => exact (step_grows he hI ht hw h).1.floats hl
  | true =>
    cases st with
    | setInts a l => exact ht.elim
    | setFloats a m =>
      obtain ⟨old, e, -, rfl⟩ := step_setFloats h
      have hne : b ≠ a := fun e => hb m (by rw [e])
      show (s.floats.set a m)[b]? = some l
      rw [floats_set e, if_neg hne, hl]
    | _ => cases hw

theorem threads_step_inv [HasMinMax V] [HasSqrt V] (hm : ∀ x y : V, x * y = y * x) {env : PyEnv V} (he : env.Ok) {m : PyThreads V}
    (hI : m.Inv) {a : Act V} (ht : m.Tame a) {m' : PyThreads V} (h : m.Step env a (.ret m')) : m'.Inv := by
  cases a with
  | stmt st =>
    obtain ⟨-, o, ho, ⟨hr, e⟩ | ⟨-, e⟩⟩ := h
    · cases o with
      | ret s =>
        cases e
        refine ⟨step_inv he hI.sess ht ho, fun j hj => (hI.jobs j hj).mono fun b hb hn l hl => ?_⟩
        exact plain_grows he hI.sess ht ho (fun l e => hr ⟨b, l, e, j, hj, hb, hn env he⟩) hl
      | _ => cases e
    · cases o <;> cases e
  | call fn x =>
    obtain ⟨o, ho, e⟩ := h
    cases e
    refine ⟨hI.sess, fun j hj => ?_⟩
    rcases List.mem_append.1 hj with h1 | h1
    · exact hI.jobs j h1
    · rw [List.mem_singleton] at h1; subst h1
      exact ⟨_, call_ok hI.sess ht ho⟩
  | bin op x y =>
    obtain ⟨o, o', ho, ho', e⟩ := h
    cases e
    refine ⟨hI.sess, fun j hj => ?_⟩
    rcases List.mem_append.1 hj with h1 | h1
    · exact hI.jobs j h1
    · rw [List.mem_singleton] at h1; subst h1
      exact ⟨_, bin_ok hI.sess ht ho ho'⟩
  | lin fn x shape b =>
    obtain ⟨o, l, ho, hl, e⟩ := h
    cases e
    refine ⟨hI.sess, fun j hj => ?_⟩
    rcases List.mem_append.1 hj with h1 | h1
    · exact hI.jobs j h1
    · rw [List.mem_singleton] at h1; subst h1
      exact ⟨fun _ _ => hl, _, lin_ok hI.sess ho (ht o l ho hl)⟩
  | finish k =>
    obtain ⟨j, hj, r, hr, e⟩ := h
    have hjobs : ∀ {s : Sess V}, m.sess.Grows s → ∀ i ∈ m.jobs.eraseIdx k, i.Ok s := fun hg i hi =>
      (hI.jobs i (List.mem_of_mem_eraseIdx hi)).mono fun _ _ _ _ hl => hg.floats hl
    rcases (job_run hm he (hI.jobs j (List.mem_of_getElem? hj))).2 r hr with ⟨v, hg, rfl⟩ | ⟨d, rfl⟩ | ⟨x, rfl⟩
    · cases e
      exact ⟨alloc_inv hI.sess hg, hjobs (alloc_grows m.sess v)⟩
    · cases e
      exact ⟨grows_inv_of_objs (give_dense_grows _ d) rfl hI.sess, hjobs (give_dense_grows _ d)⟩
    · cases e
      exact ⟨hI.sess, fun i hi => hI.jobs i (List.mem_of_mem_eraseIdx hi)⟩

theorem threads_inv [HasMinMax V] [HasSqrt V] (hm : ∀ x y : V, x * y = y * x) {envs : PyEnv V → Prop}
    (he : ∀ env, envs env → env.Ok) {ok : PyThreads V → Act V → Prop} (hok : ∀ m a, ok m a → m.Tame a) {m : PyThreads V}
    (h : PyThreads.Reach envs ok m) : m.Inv := by
  induction h with
  | start => exact ⟨fun o ho => (by cases ho), fun j hj => (by cases hj)⟩
  | step _ hmem ht hs ih => exact threads_step_inv hm (he _ hmem) ih (hok _ _ ht) hs

end Lacuna
