import Verif.Lemmas.PyGil
import Verif.Props.PySession
/-
C102: several Python threads.  The kernels run without the GIL, so other threads create objects, write to arrays and call
functions meanwhile.  Calls with sparse operands, and `x @ y`, are not affected by what happens while they run; `tensordot`
and `vecdot` read the NumPy array of the dense operand, and a write to it is a data race.
-/
set_option linter.unusedSectionVars false

namespace Lacuna
variable {V : Type}

section
variable [Zero V] [One V] [Add V] [Sub V] [Mul V] [Div V] [Neg V] [BEq V] [NatCast V] [HasFinite V]
  [HasFloor V] [HasPowf V] [HasAbs V] [HasLt V] [HasNan V] [HasFma V] [HasMinMax V] [HasSqrt V]

/-! ### Safety -/

/-- In every interleaving, both contents of every object are valid, of the same class and shape. -/
theorem threads_valid (hm : ∀ x y : V, x * y = y * x) {m : PyThreads V} (hr : PyThreads.Reach PyEnv.Ok PyThreads.Tame m)
    {o : RefObj V} (ho : o ∈ m.sess.objs) :
    (o.now m.sess).Valid ∧ (o.snap m.sess).Valid ∧ (o.snap m.sess).ty = (o.now m.sess).ty := by
  have hok := (threads_inv hm (fun _ h => h) (fun _ _ h => h) hr).sess o ho
  exact ⟨(hok.good false).1, (hok.good true).1, hok.ty_eq true⟩

theorem threads_safe_inv (hm : ∀ x y : V, x * y = y * x) {m : PyThreads V} (hI : m.Inv) {env : PyEnv V}
    (he : env.Ok) {a : Act V} (ht : m.Tame a) {out : PyRes (PyThreads V)} (h : m.Step env a out) :
    (∃ m', out = .ret m') ∨ (∃ x, out = .raises x) ∨
      (out = .ub ∧ ∃ b l, a = .stmt (.setFloats b l) ∧ ∃ fn x shape y, Job.lin fn x shape b y ∈ m.jobs ∧
        fn.borrows x shape = true ∧ ∀ e, ¬ LinSparseDense env fn x ⟨shape, y⟩ (.raises e)) := by
  cases a with
  | stmt st =>
    obtain ⟨hpl, o, ho, hout⟩ := h
    have hcase : (∃ s, o = .ret s) ∨ ∃ x, o = .raises x := by
      have hd := defined_of_step ho
      rcases prog_isSome hd with ⟨p, hp⟩ | ⟨l, rfl⟩ | ⟨l, rfl⟩ | hw
      · rcases step_made he hI.sess ht hd hp with ⟨e, -, h'⟩ | ⟨v, s', o', -, -, h', -⟩
        · exact .inr ⟨e, (h' _).1 ho⟩
        · exact .inl ⟨s', (h' _).1 ho⟩
      · exact .inl ⟨_, ho⟩
      · exact .inl ⟨_, ho⟩
      · cases st with
        | setInts a l => exact ht.elim
        | setFloats a l =>
          obtain ⟨old, -, rfl⟩ := ho
          split
          · exact .inl ⟨_, rfl⟩
          · exact .inr ⟨_, rfl⟩
        | _ => cases hw
    rcases hcase with ⟨s, rfl⟩ | ⟨x, rfl⟩
    · rcases hout with ⟨-, rfl⟩ | ⟨⟨b, l, rfl, j, hj, hb, hn⟩, rfl⟩
      · exact .inl ⟨_, rfl⟩
      · refine .inr (.inr ⟨rfl, b, l, rfl, ?_⟩)
        cases j with
        | call fn x => cases hb
        | bin op x y => cases hb
        | lin fn x shape b' y =>
          change (if fn.borrows x shape then some b' else none) = some b at hb
          split at hb
          · rename_i hbo
            cases hb
            exact ⟨fn, x, shape, y, hj, hbo, hn⟩
          · cases hb
    · rcases hout with ⟨-, rfl⟩ | ⟨-, rfl⟩ <;> exact .inr (.inl ⟨x, rfl⟩)
  | call fn x => obtain ⟨o, -, rfl⟩ := h; exact .inl ⟨_, rfl⟩
  | bin op x y => obtain ⟨o, o', -, -, rfl⟩ := h; exact .inl ⟨_, rfl⟩
  | lin fn x shape b => obtain ⟨o, l, -, -, rfl⟩ := h; exact .inl ⟨_, rfl⟩
  | finish k =>
    obtain ⟨j, hj, r, hr', rfl⟩ := h
    rcases (job_run hm he (hI.jobs j (List.mem_of_getElem? hj))).2 r hr' with ⟨v, -, rfl⟩ | ⟨d, rfl⟩ | ⟨x, rfl⟩
    · exact .inl ⟨_, rfl⟩
    · exact .inl ⟨_, rfl⟩
    · exact .inl ⟨_, rfl⟩

/-- No action hangs, and the only undefined behaviour is a write to an array that a running `tensordot` or `vecdot`, one that
does not raise, has as its dense operand. -/
theorem threads_safe (hm : ∀ x y : V, x * y = y * x) {m : PyThreads V} (hr : PyThreads.Reach PyEnv.Ok PyThreads.Tame m) {env : PyEnv V}
    (he : env.Ok) {a : Act V} (ht : m.Tame a) {out : PyRes (PyThreads V)} (h : m.Step env a out) :
    (∃ m', out = .ret m') ∨ (∃ x, out = .raises x) ∨
      (out = .ub ∧ ∃ b l, a = .stmt (.setFloats b l) ∧ ∃ fn x shape y, Job.lin fn x shape b y ∈ m.jobs ∧
        fn.borrows x shape = true ∧ ∀ e, ¬ LinSparseDense env fn x ⟨shape, y⟩ (.raises e)) :=
  threads_safe_inv hm (threads_inv hm (fun _ h => h) (fun _ _ h => h) hr) he ht h

theorem threads_total_inv (hm : ∀ x y : V, x * y = y * x) {m : PyThreads V} (hI : m.Inv) {env : PyEnv V}
    (he : env.Ok) {a : Act V} (ht : m.Tame a) (hd : m.Defined a) : ∃ out, m.Step env a out := by
  cases a with
  | stmt st =>
    have ⟨o, ho⟩ : ∃ o, m.sess.Step env st o := by
      rcases prog_isSome hd.2 with ⟨p, hp⟩ | ⟨l, rfl⟩ | ⟨l, rfl⟩ | hw
      · rcases step_made he hI.sess ht hd.2 hp with ⟨e, -, h'⟩ | ⟨v, s', o', -, -, h', -⟩
        · exact ⟨_, (h' _).2 rfl⟩
        · exact ⟨_, (h' _).2 rfl⟩
      · exact ⟨_, rfl⟩
      · exact ⟨_, rfl⟩
      · cases st with
        | setInts a l => exact ht.elim
        | setFloats a l => exact ⟨_, _, List.getElem?_eq_getElem hd.2, rfl⟩
        | _ => cases hw
    by_cases hra : m.Races env st
    · exact ⟨_, hd.1, o, ho, .inr ⟨hra, rfl⟩⟩
    · exact ⟨_, hd.1, o, ho, .inl ⟨hra, rfl⟩⟩
  | call fn x => exact ⟨_, _, List.getElem?_eq_getElem hd, rfl⟩
  | bin op x y => exact ⟨_, _, _, List.getElem?_eq_getElem hd.1, List.getElem?_eq_getElem hd.2, rfl⟩
  | lin fn x shape b => exact ⟨_, _, _, List.getElem?_eq_getElem hd.1, List.getElem?_eq_getElem hd.2, rfl⟩
  | finish k =>
    have hj : m.jobs[k]? = some _ := List.getElem?_eq_getElem hd
    obtain ⟨⟨r, hr'⟩, -⟩ := job_run hm he (hI.jobs _ (List.mem_of_getElem? hj))
    exact ⟨_, _, hj, r, hr', rfl⟩

/-- Every action has an outcome; in particular, every running call comes back. -/
theorem threads_total (hm : ∀ x y : V, x * y = y * x) {m : PyThreads V} (hr : PyThreads.Reach PyEnv.Ok PyThreads.Tame m) {env : PyEnv V}
    (he : env.Ok) {a : Act V} (ht : m.Tame a) (hd : m.Defined a) : ∃ out, m.Step env a out :=
  threads_total_inv hm (threads_inv hm (fun _ h => h) (fun _ _ h => h) hr) he ht hd

/-! ### Calls are atomic -/

theorem threads_atomic_inv {m : PyThreads V} (hI : m.Inv) {a : Act V}
    (ht : m.Tame a) {st : Stmt V} (hst : (∃ fn x, a = .call fn x ∧ st = .call fn x) ∨ ∃ op x y, a = .bin op x y ∧ st = .bin op x y)
    {env₀ : PyEnv V} {m₁ : PyThreads V} (h : m.Step env₀ a (.ret m₁)) :
    ∃ j p, m₁ = { m with jobs := m.jobs ++ [j] } ∧ m.sess.prog st = some p ∧
      ∀ (m' : PyThreads V) (k : Nat), m'.jobs[k]? = some j → ∀ env : PyEnv V, env.Ok → ∀ out,
        m'.Step env (.finish k) out ↔
          (∃ x, p.Eval env (.ret x) ∧ out = .ret ⟨m'.sess.alloc x, m'.jobs.eraseIdx k⟩) ∨
          (∃ e, p.Eval env (.raises e) ∧ out = .ret ⟨m'.sess, m'.jobs.eraseIdx k⟩) := by
  have fin : ∀ {j : Job V} {p : Prog V} {R : PyEnv V → PyRes (PyObj V) → Prop},
      (∀ env r, j.Run env r ↔ ∃ o, R env o ∧ r = o.bind fun y => .ret (.sparse y)) →
      p.LitsOk → p.Small → (∀ env : PyEnv V, env.Ok → ∀ out, R env out ↔ p.Eval env out) →
      ∀ (m' : PyThreads V) (k : Nat), m'.jobs[k]? = some j → ∀ env : PyEnv V, env.Ok → ∀ out,
        m'.Step env (.finish k) out ↔
          (∃ x, p.Eval env (.ret x) ∧ out = .ret ⟨m'.sess.alloc x, m'.jobs.eraseIdx k⟩) ∨
          (∃ e, p.Eval env (.raises e) ∧ out = .ret ⟨m'.sess, m'.jobs.eraseIdx k⟩) := by
    intro j p R hj hl hs hR m' k hk env he out
    have hone := (Prog.step he hl hs).2
    show (∃ j, m'.jobs[k]? = some j ∧ ∃ r, j.Run env r ∧ _) ↔ _
    simp only [hk, Option.some.injEq, exists_eq_left', hj env]
    rcases sparse_run he hl hs (hR env he) with ⟨v, -, hv, h1⟩ | ⟨e, hv, h1⟩
    · simp only [h1, exists_eq_left]
      have hv' := (hone _).1 hv
      constructor
      · rintro rfl; exact .inl ⟨_, hv, rfl⟩
      · rintro (⟨x, hx, rfl⟩ | ⟨e, hx, rfl⟩)
        · have := ((hone _).1 hx).trans hv'.symm
          cases this; rfl
        · have := ((hone _).1 hx).trans hv'.symm
          cases this
    · simp only [h1, exists_eq_left]
      have hv' := (hone _).1 hv
      constructor
      · rintro rfl; exact .inr ⟨_, hv, rfl⟩
      · rintro (⟨x, hx, rfl⟩ | ⟨e', hx, rfl⟩)
        · have := ((hone _).1 hx).trans hv'.symm
          cases this
        · rfl
  rcases hst with ⟨fn, x, rfl, rfl⟩ | ⟨op, x, y, rfl, rfl⟩
  · obtain ⟨o, ho, e⟩ := h
    cases e
    obtain ⟨hl, hs, hR⟩ := call_ok hI.sess ht ho
    exact ⟨_, _, rfl, by show m.sess.objs[x]?.map _ = _; rw [ho]; rfl, fin (fun _ _ => Iff.rfl) hl hs hR⟩
  · obtain ⟨o, o', ho, ho', e⟩ := h
    cases e
    obtain ⟨hl, hs, hR⟩ := bin_ok hI.sess ht ho ho'
    exact ⟨_, _, rfl, by show m.sess.objs[x]?.bind _ = _; rw [ho]; show m.sess.objs[y]?.map _ = _; rw [ho']; rfl,
      fin (fun _ _ => Iff.rfl) hl hs hR⟩

/-- A call with sparse operands, or a constructor call, finishes as if it had been executed alone when it was started: it
evaluates the program of C81 with the contents of its operands at that moment, whatever happens in between and in whatever
state `m'` it finishes. -/
theorem threads_atomic (hm : ∀ x y : V, x * y = y * x) {m : PyThreads V} (hr : PyThreads.Reach PyEnv.Ok PyThreads.Tame m) {a : Act V}
    (ht : m.Tame a) {st : Stmt V} (hst : (∃ fn x, a = .call fn x ∧ st = .call fn x) ∨ ∃ op x y, a = .bin op x y ∧ st = .bin op x y)
    {env₀ : PyEnv V} {m₁ : PyThreads V} (h : m.Step env₀ a (.ret m₁)) :
    ∃ j p, m₁ = { m with jobs := m.jobs ++ [j] } ∧ m.sess.prog st = some p ∧
      ∀ (m' : PyThreads V) (k : Nat), m'.jobs[k]? = some j → ∀ env : PyEnv V, env.Ok → ∀ out,
        m'.Step env (.finish k) out ↔
          (∃ x, p.Eval env (.ret x) ∧ out = .ret ⟨m'.sess.alloc x, m'.jobs.eraseIdx k⟩) ∨
          (∃ e, p.Eval env (.raises e) ∧ out = .ret ⟨m'.sess, m'.jobs.eraseIdx k⟩) :=
  threads_atomic_inv (threads_inv hm (fun _ h => h) (fun _ _ h => h) hr) ht hst h

omit [HasMinMax V] [HasSqrt V] in
/-- So does a product with a dense operand: it uses the elements of the dense operand when it was started. -/
theorem threads_product {m : PyThreads V} {fn : LinFn} {x : Nat} {shape : List Nat} {b : Nat} {env₀ : PyEnv V} {m₁ : PyThreads V}
    (h : m.Step env₀ (.lin fn x shape b) (.ret m₁)) :
    ∃ o l j, m.sess.objs[x]? = some o ∧ m.sess.floats[b]? = some l ∧ m₁ = { m with jobs := m.jobs ++ [j] } ∧
      (j.borrowed = if fn.borrows (o.get m.sess) shape then some b else none) ∧
      ∀ (m' : PyThreads V) (k : Nat), m'.jobs[k]? = some j → ∀ (env : PyEnv V) m'',
        m'.Step env (.finish k) (.ret m'') ↔
          (∃ r, LinSparseDense env fn (o.get m.sess) ⟨shape, l⟩ (.ret r) ∧ m'' = ⟨m'.sess.give r, m'.jobs.eraseIdx k⟩) ∨
          (∃ e, LinSparseDense env fn (o.get m.sess) ⟨shape, l⟩ (.raises e) ∧ m'' = ⟨m'.sess, m'.jobs.eraseIdx k⟩) := by
  obtain ⟨o, l, ho, hl, e⟩ := h
  cases e
  refine ⟨o, l, _, ho, hl, rfl, rfl, fun m' k hk env m'' => ?_⟩
  show (∃ j, m'.jobs[k]? = some j ∧ ∃ r, j.Run env r ∧ _) ↔ _
  simp only [hk, Option.some.injEq, exists_eq_left']
  constructor
  · rintro ⟨r, hr, e⟩
    cases r with
    | ret y => cases e; exact .inl ⟨y, hr, rfl⟩
    | raises x => cases e; exact .inr ⟨x, hr, rfl⟩
    | _ => cases e
  · rintro (⟨r, hr, rfl⟩ | ⟨x, hr, rfl⟩)
    · exact ⟨_, hr, rfl⟩
    · exact ⟨_, hr, rfl⟩

/-- As long as no write races, the array that a running `tensordot` or `vecdot` reads keeps these elements. -/
theorem borrow_stable (hm : ∀ x y : V, x * y = y * x) {m : PyThreads V} (hr : PyThreads.Reach PyEnv.Ok PyThreads.Tame m) {fn : LinFn}
    {x : PyObj V} {shape : List Nat} {b : Nat} {y : List V} (hj : Job.lin fn x shape b y ∈ m.jobs) (hb : fn.borrows x shape = true)
    (hn : ∀ env : PyEnv V, env.Ok → ∀ e, ¬ LinSparseDense env fn x ⟨shape, y⟩ (.raises e)) : m.sess.floats[b]? = some y :=
  ((threads_inv hm (fun _ h => h) (fun _ _ h => h) hr).jobs _ hj).1 hb hn

/-! ### The race -/

omit [HasMinMax V] [HasSqrt V] in
/-- C102 (negative): a write to the dense operand of a running `tensordot` or `vecdot` is undefined behaviour. -/
theorem borrow_race {m : PyThreads V} {fn : LinFn} {x : PyObj V} {shape : List Nat} {b : Nat} {y : List V}
    (hj : Job.lin fn x shape b y ∈ m.jobs) (hb : fn.borrows x shape = true) {l l' : List V} (hl : m.sess.floats[b]? = some l)
    (hlen : l'.length = l.length) {env : PyEnv V} (hn : ∀ e, ¬ LinSparseDense env fn x ⟨shape, y⟩ (.raises e))
    (out : PyRes (PyThreads V)) : m.Step env (.stmt (.setFloats b l')) out ↔ out = .ub := by
  have hra : m.Races env (.setFloats b l') := ⟨b, l', rfl, _, hj, by
    show (if fn.borrows x shape then some b else none) = _
    rw [if_pos hb], hn⟩
  constructor
  · rintro ⟨-, o, ⟨old, ho, rfl⟩, ⟨h, -⟩ | ⟨-, rfl⟩⟩
    · exact (h hra).elim
    · rw [hl] at ho; cases ho
      rw [if_pos hlen]; rfl
  · rintro rfl
    refine ⟨rfl, _, ⟨l, hl, rfl⟩, .inr ⟨hra, ?_⟩⟩
    rw [if_pos hlen]; rfl

theorem product_races_inv (hm : ∀ x y : V, x * y = y * x) {m : PyThreads V} (hI : m.Inv) {fn : LinFn}
    {i : Nat} {shape : List Nat} {b : Nat} (ht : m.Tame (.lin fn i shape b)) {o : RefObj V} {l : List V}
    (ho : m.sess.objs[i]? = some o) (hl : m.sess.floats[b]? = some l) (h2 : (o.now m.sess).ty.Is2d) {tr : Bool} {p : Nat}
    (hc : fn.Contraction shape.length tr p) {r c : Nat}
    (hrc : (if tr then (o.now m.sess).ty.shape.reverse else (o.now m.sess).ty.shape) = [r, c]) (hyc : shape[p]? = some c)
    (hb : fn.borrows (o.get m.sess) shape = true) {l' : List V} (hlen : l'.length = l.length) :
    ∃ m₁, (∀ env out, m.Step env (.lin fn i shape b) out ↔ out = .ret m₁) ∧
      ∀ env out, m₁.Step env (.stmt (.setFloats b l')) out ↔ out = .ub := by
  obtain ⟨hg, ⟨hy, hsz, -⟩, hv⟩ := lin_ok hI.sess ho (ht o l ho hl)
  have hty := (hI.sess o (List.mem_of_getElem? ho)).ty_eq (Query.linalg fn (⟨shape, l⟩ : DenseNd V)).frozen
  rw [← hty] at hrc h2
  obtain ⟨h0, h1⟩ := hsz h2 tr p r c hc hrc hyc
  refine ⟨{ m with jobs := m.jobs ++ [.lin fn (o.get m.sess) shape b l] }, fun env out => ?_, fun env out =>
    borrow_race (m := { m with jobs := m.jobs ++ [.lin fn (o.get m.sess) shape b l] }) (x := o.get m.sess) (y := l)
      (List.mem_append.2 (.inr (List.mem_singleton.2 rfl))) hb hl hlen (fun e he => ?_) out⟩
  · show (∃ o' l', m.sess.objs[i]? = some o' ∧ m.sess.floats[b]? = some l' ∧ _) ↔ _
    simp only [ho, hl, Option.some.injEq, exists_and_left, exists_eq_left']
  · obtain ⟨d, e1, -⟩ := (py_linalg_any hm env hg.1 hg.2 h2 hy hc hrc hyc h0 h1).2 _ ((hv env _).1 he)
    cases e1

/-- C102 (negative): every product of a matrix with a dense array that does not go through `@` can race: right after its
start, a write to the array is undefined behaviour. -/
theorem product_races (hm : ∀ x y : V, x * y = y * x) {m : PyThreads V} (hr : PyThreads.Reach PyEnv.Ok PyThreads.Tame m) {fn : LinFn}
    {i : Nat} {shape : List Nat} {b : Nat} (ht : m.Tame (.lin fn i shape b)) {o : RefObj V} {l : List V}
    (ho : m.sess.objs[i]? = some o) (hl : m.sess.floats[b]? = some l) (h2 : (o.now m.sess).ty.Is2d) {tr : Bool} {p : Nat}
    (hc : fn.Contraction shape.length tr p) {r c : Nat}
    (hrc : (if tr then (o.now m.sess).ty.shape.reverse else (o.now m.sess).ty.shape) = [r, c]) (hyc : shape[p]? = some c)
    (hb : fn.borrows (o.get m.sess) shape = true) {l' : List V} (hlen : l'.length = l.length) :
    ∃ m₁, (∀ env out, m.Step env (.lin fn i shape b) out ↔ out = .ret m₁) ∧
      ∀ env out, m₁.Step env (.stmt (.setFloats b l')) out ↔ out = .ub :=
  product_races_inv hm (threads_inv hm (fun _ h => h) (fun _ _ h => h) hr) ht ho hl h2 hc hrc hyc hb hlen

theorem product_races_nd_inv {m : PyThreads V} (hI : m.Inv)
    {fn : LinFn} {i : Nat} {shape : List Nat} {b : Nat} (ht : m.Tame (.lin fn i shape b)) {o : RefObj V} {l : List V}
    (ho : m.sess.objs[i]? = some o) (hl : m.sess.floats[b]? = some l) {s rest : List Nat} (hs : (o.now m.sess).ty = .nd s)
    {axis : Nat} (hax : axis < s.length) (hc : fn.NdContraction s.length axis) (hys : shape = s.getD axis 0 :: rest)
    (hvd : ∀ ax, fn = .vecdot ax → rest = [] ∧ 1 < s.length) {l' : List V} (hlen : l'.length = l.length) :
    ∃ m₁, (∀ env out, m.Step env (.lin fn i shape b) out ↔ out = .ret m₁) ∧
      ∀ env, env.Ok → ∀ out, m₁.Step env (.stmt (.setFloats b l')) out ↔ out = .ub := by
  obtain ⟨hg, ⟨hy, -, hsz⟩, hv⟩ := lin_ok hI.sess ho (ht o l ho hl)
  have hty := (hI.sess o (List.mem_of_getElem? ho)).ty_eq (Query.linalg fn (⟨shape, l⟩ : DenseNd V)).frozen
  obtain ⟨h0, h1, h3⟩ := hsz s (hty.trans hs) axis rest hax hc hys
  have hb : fn.borrows (o.get m.sess) shape = true := by
    cases o with
    | mat f r c p i d h => cases f <;> cases hs
    | coo r c i j d h => cases hs
    | nd sh i d =>
      cases fn with
      | matmul => exact hc.elim
      | tensordot axes => rfl
      | vecdot ax => rfl
  refine ⟨{ m with jobs := m.jobs ++ [.lin fn (o.get m.sess) shape b l] }, fun env out => ?_, fun env henv out =>
    borrow_race (m := { m with jobs := m.jobs ++ [.lin fn (o.get m.sess) shape b l] }) (x := o.get m.sess) (y := l)
      (List.mem_append.2 (.inr (List.mem_singleton.2 rfl))) hb hl hlen (fun e he => ?_) out⟩
  · show (∃ o' l', m.sess.objs[i]? = some o' ∧ m.sess.floats[b]? = some l' ∧ _) ↔ _
    simp only [ho, hl, Option.some.injEq, exists_and_left, exists_eq_left']
  · rw [hv] at he
    generalize o.view m.sess (Query.linalg fn (⟨shape, l⟩ : DenseNd V)).frozen = v at *
    cases v with
    | mat f a => have := hty.trans hs; cases this
    | coo a => have := hty.trans hs; cases this
    | nd a =>
      have := hty.trans hs
      cases this
      cases fn with
      | matmul => exact hc.elim
      | tensordot axes =>
        obtain ⟨r, -, -, h⟩ := tensordot_nd_good henv hg hax hc hy hys h0 h1 h3
        have := (h _).1 he
        cases this
      | vecdot ax =>
        obtain ⟨rfl, h4⟩ := hvd ax rfl
        obtain ⟨r, -, -, h⟩ := vecdot_nd_good henv hg hax h4 hc hy hys
        have := (h _).1 he
        cases this

/-- C102 (negative): so can every product of a `COOND`. -/
theorem product_races_nd (hm : ∀ x y : V, x * y = y * x) {m : PyThreads V} (hr : PyThreads.Reach PyEnv.Ok PyThreads.Tame m)
    {fn : LinFn} {i : Nat} {shape : List Nat} {b : Nat} (ht : m.Tame (.lin fn i shape b)) {o : RefObj V} {l : List V}
    (ho : m.sess.objs[i]? = some o) (hl : m.sess.floats[b]? = some l) {s rest : List Nat} (hs : (o.now m.sess).ty = .nd s)
    {axis : Nat} (hax : axis < s.length) (hc : fn.NdContraction s.length axis) (hys : shape = s.getD axis 0 :: rest)
    (hvd : ∀ ax, fn = .vecdot ax → rest = [] ∧ 1 < s.length) {l' : List V} (hlen : l'.length = l.length) :
    ∃ m₁, (∀ env out, m.Step env (.lin fn i shape b) out ↔ out = .ret m₁) ∧
      ∀ env, env.Ok → ∀ out, m₁.Step env (.stmt (.setFloats b l')) out ↔ out = .ub :=
  product_races_nd_inv (threads_inv hm (fun _ h => h) (fun _ _ h => h) hr) ht ho hl hs hax hc hys hvd hlen

omit [HasMinMax V] [HasSqrt V] in
/-- While only products through `@`, and calls with sparse operands, are running, a write to any array of values goes
through. -/
theorem write_beside {m : PyThreads V} (h : ∀ j ∈ m.jobs, ∀ fn x shape b y, j = Job.lin fn x shape b y → fn.borrows x shape = false)
    {b : Nat} {l l' : List V} (hl : m.sess.floats[b]? = some l) (hlen : l'.length = l.length) (env : PyEnv V)
    (out : PyRes (PyThreads V)) :
    m.Step env (.stmt (.setFloats b l')) out ↔ out = .ret { m with sess := { m.sess with floats := m.sess.floats.set b l' } } := by
  have hra : ¬ m.Races env (.setFloats b l') := by
    rintro ⟨a, l, -, j, hj, hb, -⟩
    cases j with
    | call fn x => cases hb
    | bin op x y => cases hb
    | lin fn x shape b' y =>
      change (if fn.borrows x shape then some b' else none) = some a at hb
      rw [h _ hj fn x shape b' y rfl] at hb
      cases hb
  constructor
  · rintro ⟨-, o, ⟨old, ho, rfl⟩, ⟨-, rfl⟩ | ⟨h, -⟩⟩
    · rw [hl] at ho; cases ho
      rw [if_pos hlen]; rfl
    · exact (hra h).elim
  · rintro rfl
    refine ⟨rfl, _, ⟨l, hl, rfl⟩, .inl ⟨hra, ?_⟩⟩
    rw [if_pos hlen]; rfl

/-! ### Sessions are the case of one thread -/

omit [HasMinMax V] [HasSqrt V] in
/-- Every session (C81) is a run of the threads in which each call is finished before the next action. -/
theorem session_threads {envs : PyEnv V → Prop} {s : Sess V} (hr : Sess.Reach envs Sess.Tame s) :
    PyThreads.Reach envs PyThreads.Tame ⟨s, []⟩ := by
  induction hr with
  | start => exact .start
  | @step env s s' st _ he ht hs ih =>
    have hno : ∀ st' : Stmt V, ¬ (⟨s, []⟩ : PyThreads V).Races env st' := by rintro st' ⟨a, l, -, j, hj, -⟩; cases hj
    by_cases hp : st.plain = true
    · exact .step ih he (a := .stmt st) ht ⟨hp, _, hs, .inl ⟨hno st, rfl⟩⟩
    · cases st with
      | call fn x =>
        obtain ⟨o, ho, r, hr, e⟩ := hs
        have h1 : PyThreads.Reach envs PyThreads.Tame ⟨s, [.call fn (o.get s)]⟩ := .step ih he (a := .call fn x) ht ⟨o, ho, rfl⟩
        cases r with
        | ret y => cases e; exact .step h1 he (a := .finish 0) trivial ⟨_, rfl, .ret (.sparse y), ⟨_, hr, rfl⟩, rfl⟩
        | _ => cases e
      | bin op x y =>
        obtain ⟨o, o', ho, ho', r, hr, e⟩ := hs
        have h1 : PyThreads.Reach envs PyThreads.Tame ⟨s, [.bin op (o.get s) (o'.get s)]⟩ :=
          .step ih he (a := .bin op x y) ht ⟨o, o', ho, ho', rfl⟩
        cases r with
        | ret y => cases e; exact .step h1 he (a := .finish 0) trivial ⟨_, rfl, .ret (.sparse y), ⟨_, hr, rfl⟩, rfl⟩
        | _ => cases e
      | _ => exact (hp rfl).elim

/-! ### A race between two threads -/

/-- A `CSR` with one entry, and a dense array with three elements. -/
def withDense (v : V) (l : List V) : Sess V := { oneEntry v with floats := [[v], l] }

omit [HasMinMax V] [HasSqrt V] in
theorem withDense_reach (env : PyEnv V) (v : V) (l : List V) : Sess.Reach (· = env) Sess.Tame (withDense v l) :=
  .step (s := oneEntry v) (st := .floats l) ((oneEntry_reach env v).imp (fun _ h => h) fun _ _ h => h.1) rfl trivial rfl

omit [HasMinMax V] [HasSqrt V] in
theorem PyThreads.Reach.imp {envs envs' : PyEnv V → Prop} (he : ∀ env, envs env → envs' env) {ok : PyThreads V → Act V → Prop}
    {m : PyThreads V} (hr : PyThreads.Reach envs ok m) : PyThreads.Reach envs' ok m := by
  induction hr with
  | start => exact .start
  | step _ hm ht hs ih => exact .step ih (he _ hm) ht hs

omit [HasMinMax V] [HasSqrt V] in
theorem tame_tensordot (v a b c : V) : PyThreads.Tame ⟨withDense v [a, b, c], []⟩ (.lin (.tensordot (.int 1)) 0 [3, 1] 1) := by
  intro o l ho hl
  cases ho; cases hl
  refine ⟨⟨rfl, by show (8 * ((3 : Nat) : Int)) ≤ _; decide⟩, fun _ => ?_, fun s hs => by cases hs⟩
  rintro tr p r c ⟨rfl, -, rfl, -⟩ h2 h3
  cases h2; cases h3
  refine ⟨Nat.one_pos, ?_⟩
  show (8 * ((max 2 1 * 1 : Nat) : Int)) ≤ _
  decide

omit [HasMinMax V] [HasSqrt V] in
theorem tame_vecdot (v a b : V) : PyThreads.Tame ⟨withDense v [a, b], []⟩ (.lin (.vecdot (some 0)) 0 [2] 1) := by
  intro o l ho hl
  cases ho; cases hl
  refine ⟨⟨rfl, by show (8 * ((2 : Nat) : Int)) ≤ _; decide⟩, fun _ => ?_, fun s hs => by cases hs⟩
  rintro tr p r c ⟨-, rfl, -⟩ h2 h3
  cases h3
  cases tr
  · cases h2
  · cases h2
    refine ⟨Nat.one_pos, ?_⟩
    show (8 * ((max 3 1 * 1 : Nat) : Int)) ≤ _
    decide

/-- C102 (negative): one thread calls `tensordot(x, y)`, or `vecdot(x, z, axis=0)`, another one writes to `y`, or `z`,
before the call is finished: undefined behaviour, although every object is valid and every call and every write is fine on
its own. -/
theorem tensordot_race (hm : ∀ x y : V, x * y = y * x) (v a b c a' b' c' : V) {env : PyEnv V} (he : env.Ok) :
    (∃ m, PyThreads.Reach (· = env) PyThreads.Tame m ∧ m.Tame (.stmt (.setFloats 1 [a', b', c'])) ∧
      (∃ x, m.jobs = [.lin (.tensordot (.int 1)) x [3, 1] 1 [a, b, c]]) ∧
      ∀ out, m.Step env (.stmt (.setFloats 1 [a', b', c'])) out ↔ out = .ub) ∧
    (∃ m, PyThreads.Reach (· = env) PyThreads.Tame m ∧ m.Tame (.stmt (.setFloats 1 [a', b'])) ∧
      (∃ x, m.jobs = [.lin (.vecdot (some 0)) x [2] 1 [a, b]]) ∧
      ∀ out, m.Step env (.stmt (.setFloats 1 [a', b'])) out ↔ out = .ub) := by
  have r1 := session_threads (withDense_reach env v [a, b, c])
  have r2 := session_threads (withDense_reach env v [a, b])
  obtain ⟨m₁, h1, h2⟩ := product_races hm (r1.imp (by rintro _ rfl; exact he)) (tame_tensordot v a b c)
    (o := .mat .csr 2 3 0 1 0 (some ⟨2, 3, [0, 1, 1], [0], [v]⟩)) rfl rfl trivial (tr := false) (p := 0)
    ⟨rfl, by decide, rfl, .inl rfl⟩ (r := 2) (c := 3) rfl rfl rfl (l' := [a', b', c']) rfl
  obtain ⟨m₂, h3, h4⟩ := product_races hm (r2.imp (by rintro _ rfl; exact he)) (tame_vecdot v a b)
    (o := .mat .csr 2 3 0 1 0 (some ⟨2, 3, [0, 1, 1], [0], [v]⟩)) rfl rfl trivial (tr := true) (p := 0)
    ⟨rfl, rfl, rfl⟩ (r := 3) (c := 2) rfl rfl rfl (l' := [a', b']) rfl
  refine ⟨⟨m₁, .step r1 rfl (tame_tensordot v a b c) ((h1 env _).2 rfl), trivial, ?_, h2 env⟩,
    ⟨m₂, .step r2 rfl (tame_vecdot v a b) ((h3 env _).2 rfl), trivial, ?_, h4 env⟩⟩
  · obtain ⟨o, l, ho, hl, e⟩ := (h1 env _).2 rfl
    cases ho; cases hl; cases e
    exact ⟨_, rfl⟩
  · obtain ⟨o, l, ho, hl, e⟩ := (h3 env _).2 rfl
    cases ho; cases hl; cases e
    exact ⟨_, rfl⟩

omit [HasMinMax V] [HasSqrt V] in
/-- The same with `x @ y`: the write goes through. -/
theorem matmul_no_race (v a b c a' b' c' : V) (env : PyEnv V) :
    ∃ m x, PyThreads.Reach (· = env) PyThreads.Tame m ∧ m.jobs = [.lin .matmul x [3, 1] 1 [a, b, c]] ∧
      ∀ out, m.Step env (.stmt (.setFloats 1 [a', b', c'])) out ↔
        out = .ret { m with sess := { m.sess with floats := m.sess.floats.set 1 [a', b', c'] } } := by
  refine ⟨_, _, .step (session_threads (withDense_reach env v [a, b, c])) rfl (a := .lin .matmul 0 [3, 1] 1) ?_
      ⟨_, _, rfl, rfl, rfl⟩, rfl, fun out => write_beside (b := 1) (l := [a, b, c]) (l' := [a', b', c']) ?_ (by exact rfl) rfl env out⟩
  · intro o l ho hl
    cases ho; cases hl
    refine ⟨⟨rfl, by show (8 * ((3 : Nat) : Int)) ≤ _; decide⟩, fun _ => ?_, fun s hs => by cases hs⟩
    rintro tr p r c ⟨rfl, ⟨h, -⟩ | ⟨-, rfl⟩⟩ h2 h3
    · cases h
    · cases h2; cases h3
      refine ⟨Nat.one_pos, ?_⟩
      show (8 * ((max 2 1 * 1 : Nat) : Int)) ≤ _
      decide
  · intro j hj fn x shape b y e
    cases List.mem_singleton.1 hj
    cases e
    rfl

end

section
variable [Field V] [BEq V] [LawfulBEq V] [HasFinite V] [HasFloor V] [HasPowf V] [HasAbs V] [HasLt V] [HasNan V] [HasFma V]
  [IdealFma V] [HasMinMax V] [HasSqrt V]

theorem Contracts.unique {r c p : Nat} {f : List Int → V} {y d d' : DenseNd V} (h : Contracts r c f p y d)
    (h' : Contracts r c f p y d') : d = d' := by
  obtain ⟨s, l⟩ := d
  obtain ⟨s', l'⟩ := d'
  obtain rfl : s = s' := h.1.trans h'.1.symm
  have e1 := isDenseNd_eq (s := s) (f := DenseNd.elem ⟨s, l⟩) (out := l) ⟨h.2.1, fun x _ => rfl⟩
  have e2 := isDenseNd_eq (s := s) (f := DenseNd.elem ⟨s, l'⟩) (out := l') ⟨h'.2.1, fun x _ => rfl⟩
  have : l = l' := by
    rw [e1, e2]
    exact List.map_congr_left fun z hz => (h.2.2 z (mem_indicesOf.1 hz)).trans (h'.2.2 z (mem_indicesOf.1 hz)).symm
  rw [this]

theorem threads_value_inv {m : PyThreads V} (hI : m.Inv) {fn : LinFn} {i : Nat} {shape : List Nat} {b : Nat}
    (ht : m.Tame (.lin fn i shape b)) {o : RefObj V} {l : List V} (ho : m.sess.objs[i]? = some o) (hl : m.sess.floats[b]? = some l)
    (h2 : (o.now m.sess).ty.Is2d) {tr : Bool} {p : Nat} (hc : fn.Contraction shape.length tr p) {r c : Nat}
    (hrc : (if tr then (o.now m.sess).ty.shape.reverse else (o.now m.sess).ty.shape) = [r, c]) (hyc : shape[p]? = some c) :
    ∃ j d, (∀ env out, m.Step env (.lin fn i shape b) out ↔ out = .ret { m with jobs := m.jobs ++ [j] }) ∧
      Contracts r c (fun x => (o.view m.sess (Query.linalg fn ⟨shape, l⟩ : Query V).frozen).cell (if tr then x.reverse else x)) p
        ⟨shape, l⟩ d ∧
      ∀ (m' : PyThreads V) (k : Nat), m'.jobs[k]? = some j → ∀ (env : PyEnv V) out,
        m'.Step env (.finish k) out ↔
          out = .ret ⟨{ m'.sess with floats := m'.sess.floats ++ [d.data] }, m'.jobs.eraseIdx k⟩ := by
  obtain ⟨hg, ⟨hy, hsz, -⟩, hv⟩ := lin_ok hI.sess ho (ht o l ho hl)
  have hty := (hI.sess o (List.mem_of_getElem? ho)).ty_eq (Query.linalg fn (⟨shape, l⟩ : DenseNd V)).frozen
  rw [← hty] at hrc h2
  obtain ⟨h0, h1⟩ := hsz h2 tr p r c hc hrc hyc
  have key := fun env => py_linalg env hg.1 hg.2 h2 hy hc hrc hyc h0 h1
  obtain ⟨d, hd, -⟩ := key ⟨true, 0, id, id, id, fun _ _ => []⟩
  refine ⟨.lin fn (o.get m.sess) shape b l, d, fun env out => ?_, hd, fun m' k hk env out => ?_⟩
  · show (∃ o' l', m.sess.objs[i]? = some o' ∧ m.sess.floats[b]? = some l' ∧ _) ↔ _
    simp only [ho, hl, Option.some.injEq, exists_and_left, exists_eq_left']
  · obtain ⟨d', hd', h⟩ := key env
    have hdd : d' = d := hd'.unique hd
    subst hdd
    show (∃ j, m'.jobs[k]? = some j ∧ ∃ r, j.Run env r ∧ _) ↔ _
    simp only [hk, Option.some.injEq, exists_eq_left']
    constructor
    · rintro ⟨r, hr, rfl⟩
      have := (h r).1 ((hv env r).1 hr)
      subst this; rfl
    · rintro rfl
      exact ⟨_, (hv env _).2 ((h _).2 rfl), rfl⟩

/-- C102: over a field, a product with a dense operand gives one result in every state in which it finishes: a new array
with the contraction of the contents that its operands had when it was started. -/
theorem threads_value {m : PyThreads V} (hr : PyThreads.Reach PyEnv.Ok PyThreads.Tame m) {fn : LinFn} {i : Nat} {shape : List Nat} {b : Nat}
    (ht : m.Tame (.lin fn i shape b)) {o : RefObj V} {l : List V} (ho : m.sess.objs[i]? = some o) (hl : m.sess.floats[b]? = some l)
    (h2 : (o.now m.sess).ty.Is2d) {tr : Bool} {p : Nat} (hc : fn.Contraction shape.length tr p) {r c : Nat}
    (hrc : (if tr then (o.now m.sess).ty.shape.reverse else (o.now m.sess).ty.shape) = [r, c]) (hyc : shape[p]? = some c) :
    ∃ j d, (∀ env out, m.Step env (.lin fn i shape b) out ↔ out = .ret { m with jobs := m.jobs ++ [j] }) ∧
      Contracts r c (fun x => (o.view m.sess (Query.linalg fn ⟨shape, l⟩ : Query V).frozen).cell (if tr then x.reverse else x)) p
        ⟨shape, l⟩ d ∧
      ∀ (m' : PyThreads V) (k : Nat), m'.jobs[k]? = some j → ∀ (env : PyEnv V) out,
        m'.Step env (.finish k) out ↔
          out = .ret ⟨{ m'.sess with floats := m'.sess.floats ++ [d.data] }, m'.jobs.eraseIdx k⟩ :=
  threads_value_inv (threads_inv mul_comm (fun _ h => h) (fun _ _ h => h) hr) ht ho hl h2 hc hrc hyc

theorem threads_value_nd_inv {m : PyThreads V} (hI : m.Inv) {axes : AxesArg} {i : Nat}
    {shape : List Nat} {b : Nat} (ht : m.Tame (.lin (.tensordot axes) i shape b)) {o : RefObj V} {l : List V}
    (ho : m.sess.objs[i]? = some o) (hl : m.sess.floats[b]? = some l) {a : CooNd V} (hn : o.now m.sess = .nd a) {axis : Nat}
    {rest : List Nat} (hax : axis < a.shape.length) (hc : (LinFn.tensordot axes).NdContraction a.shape.length axis)
    (hys : shape = a.shape.getD axis 0 :: rest) :
    ∃ j, (∀ env out, m.Step env (.lin (.tensordot axes) i shape b) out ↔ out = .ret { m with jobs := m.jobs ++ [j] }) ∧
      ∀ (m' : PyThreads V) (k : Nat), m'.jobs[k]? = some j → ∀ env : PyEnv V, env.Ok → ∃ r : CooNd V,
        (∀ out, m'.Step env (.finish k) out ↔ out = .ret ⟨m'.sess.alloc (SpVal.nd r).obj, m'.jobs.eraseIdx k⟩) ∧
        r.WF ∧ r.Sorted ∧ r.shape = a.shape.eraseIdx axis ++ [rest.prod] ∧
        ∀ u z, InBounds (a.shape.eraseIdx axis) u → InBounds rest z →
          r.val (u ++ [(rowMajor rest z : Int)]) = ((List.range (a.shape.getD axis 0)).map fun (j : Nat) =>
            a.val (u.insertIdx axis (j : Int)) * (⟨shape, l⟩ : DenseNd V).elem ((j : Int) :: z)).sum := by
  obtain ⟨hg, ⟨hy, -, hsz⟩, hv⟩ := lin_ok hI.sess ho (ht o l ho hl)
  have hview : o.view m.sess (Query.linalg (.tensordot axes) (⟨shape, l⟩ : DenseNd V)).frozen = .nd a := by
    rw [← hn]
    cases o with
    | mat f r c p i d h => cases f <;> cases hn
    | coo r c i j d h => cases hn
    | nd sh i d => unfold RefObj.view; split <;> rfl
  rw [hview] at hg hsz hv
  obtain ⟨h0, h1, h3⟩ := hsz a.shape rfl axis rest hax hc hys
  refine ⟨.lin (.tensordot axes) (o.get m.sess) shape b l, fun env out => ?_, fun m' k hk env henv => ?_⟩
  · show (∃ o' l', m.sess.objs[i]? = some o' ∧ m.sess.floats[b]? = some l' ∧ _) ↔ _
    simp only [ho, hl, Option.some.injEq, exists_and_left, exists_eq_left']
  · obtain ⟨r, g1, g2, g3, -, g4, g5⟩ := py_tensordot_nd henv hg.1 hg.2 hax hc hy hys h0 h1 h3
    refine ⟨r, fun out => ?_, g2, g3, g4, g5⟩
    show (∃ j, m'.jobs[k]? = some j ∧ ∃ r, j.Run env r ∧ _) ↔ _
    simp only [hk, Option.some.injEq, exists_eq_left']
    constructor
    · rintro ⟨r, hr, rfl⟩
      have := (g1 r).1 ((hv env r).1 hr)
      subst this; rfl
    · rintro rfl
      exact ⟨_, (hv env _).2 ((g1 _).2 rfl), rfl⟩

/-- C102: the same for `tensordot` of a `COOND`: whenever it finishes, a valid `COOND` with the contraction of the contents at
the start. -/
theorem threads_value_nd {m : PyThreads V} (hr : PyThreads.Reach PyEnv.Ok PyThreads.Tame m) {axes : AxesArg} {i : Nat}
    {shape : List Nat} {b : Nat} (ht : m.Tame (.lin (.tensordot axes) i shape b)) {o : RefObj V} {l : List V}
    (ho : m.sess.objs[i]? = some o) (hl : m.sess.floats[b]? = some l) {a : CooNd V} (hn : o.now m.sess = .nd a) {axis : Nat}
    {rest : List Nat} (hax : axis < a.shape.length) (hc : (LinFn.tensordot axes).NdContraction a.shape.length axis)
    (hys : shape = a.shape.getD axis 0 :: rest) :
    ∃ j, (∀ env out, m.Step env (.lin (.tensordot axes) i shape b) out ↔ out = .ret { m with jobs := m.jobs ++ [j] }) ∧
      ∀ (m' : PyThreads V) (k : Nat), m'.jobs[k]? = some j → ∀ env : PyEnv V, env.Ok → ∃ r : CooNd V,
        (∀ out, m'.Step env (.finish k) out ↔ out = .ret ⟨m'.sess.alloc (SpVal.nd r).obj, m'.jobs.eraseIdx k⟩) ∧
        r.WF ∧ r.Sorted ∧ r.shape = a.shape.eraseIdx axis ++ [rest.prod] ∧
        ∀ u z, InBounds (a.shape.eraseIdx axis) u → InBounds rest z →
          r.val (u ++ [(rowMajor rest z : Int)]) = ((List.range (a.shape.getD axis 0)).map fun (j : Nat) =>
            a.val (u.insertIdx axis (j : Int)) * (⟨shape, l⟩ : DenseNd V).elem ((j : Int) :: z)).sum :=
  threads_value_nd_inv (threads_inv mul_comm (fun _ h => h) (fun _ _ h => h) hr) ht ho hl hn hax hc hys

end

/-! ### examples -/

section
attribute [local instance] meaningHasFinite meaningHasFloor meaningHasPowf meaningHasLt meaningHasAbs meaningHasNan meaningIdealOrd

/-- The objects of C81's example, whose values are `[1, -2, 3]` by now, and a dense array. -/
def exDense : Sess ℚ := { exWritten with floats := exWritten.floats ++ [[1, 10, 100]] }

theorem exDense_reach [HasFma ℚ] (dbg : Bool) : PyThreads.Reach PyEnv.Ok PyThreads.Tame (⟨exDense, []⟩ : PyThreads ℚ) :=
  session_threads (.step (s := exWritten) (st := .floats [1, 10, 100]) (exWritten_reach (exEnvQ_ok dbg)) (exEnvQ_ok dbg) trivial rfl)

/-- One thread calls `abs(x)`, a second one `x @ y`; then the arrays of the values of `x` and of `y` are overwritten. -/
def exRunning : PyThreads ℚ :=
  ⟨{ exDense with floats := [[7, 7, 7], [0, 0, 0]] },
    [.call (.un .abs) (.mat .csr ⟨2, 3, [0, 2, 3], [0, 2, 1], [1, -2, 3], some ⟨2, 3, [0, 2, 3], [0, 2, 1], [5, 6, 7]⟩⟩),
     .lin .matmul (.mat .csr ⟨2, 3, [0, 2, 3], [0, 2, 1], [1, -2, 3], some ⟨2, 3, [0, 2, 3], [0, 2, 1], [5, 6, 7]⟩⟩) [3] 1 [1, 10, 100]]⟩

theorem exTame (m : PyThreads ℚ) (h : m.sess = exDense) : m.Tame (.lin .matmul 0 [3] 1) := by
  intro o l ho hl
  rw [h] at ho hl ⊢
  cases ho; cases hl
  refine ⟨⟨rfl, by show (8 * ((3 : Nat) : Int)) ≤ _; decide⟩, fun _ => ?_, fun s hs => by cases hs⟩
  rintro tr p r c ⟨rfl, ⟨-, rfl⟩ | ⟨h, -⟩⟩ h2 h3
  · cases h2; cases h3
    refine ⟨Nat.one_pos, ?_⟩
    show (8 * ((max 2 1 * 1 : Nat) : Int)) ≤ _
    decide
  · exact absurd h (by decide)

theorem exRunning_reach [HasFma ℚ] (dbg : Bool) : PyThreads.Reach PyEnv.Ok PyThreads.Tame exRunning := by
  have he := exEnvQ_ok dbg
  have hj : ∀ j ∈ exRunning.jobs, ∀ fn x shape b y, j = Job.lin fn x shape b y → fn.borrows x shape = false := by
    intro j hj fn x shape b y e
    subst e
    simp [exRunning] at hj
    rw [hj.1]; rfl
  let m₂ : PyThreads ℚ := { exRunning with sess := exDense }
  let m₃ : PyThreads ℚ := { exRunning with sess := { exDense with floats := [[7, 7, 7], [1, 10, 100]] } }
  have h1 : PyThreads.Reach PyEnv.Ok PyThreads.Tame (⟨exDense, exRunning.jobs.take 1⟩ : PyThreads ℚ) := by
    refine .step (a := .call (.un .abs) 0) (exDense_reach dbg) he ?_ ⟨_, rfl, rfl⟩
    intro o h; cases h; show Ty.SizeOk 3 (.mat .csr 2 3); decide
  have h2 : PyThreads.Reach PyEnv.Ok PyThreads.Tame m₂ := .step (a := .lin .matmul 0 [3] 1) h1 he (exTame _ rfl) ⟨_, _, rfl, rfl, rfl⟩
  have h3 : PyThreads.Reach PyEnv.Ok PyThreads.Tame m₃ := .step (a := .stmt (.setFloats 0 [7, 7, 7])) h2 he trivial
    ((write_beside (m := m₂) (b := 0) (l := [1, -2, 3]) (l' := [7, 7, 7]) hj rfl rfl _ _).2 rfl)
  exact .step (a := .stmt (.setFloats 1 [0, 0, 0])) h3 he trivial
    ((write_beside (m := m₃) (b := 1) (l := [1, 10, 100]) (l' := [0, 0, 0]) hj rfl rfl _ _).2 rfl)

/-- Nothing that is done next is undefined: no call that is running borrows an array. -/
example (dbg : Bool) [HasFma ℚ] [HasMinMax ℚ] [HasSqrt ℚ] (a : Act ℚ) (ht : exRunning.Tame a) (out : PyRes (PyThreads ℚ))
    (h : exRunning.Step (exEnvQ dbg) a out) : out ≠ .ub ∧ out ≠ .hang := by
  rcases threads_safe mul_comm (exRunning_reach dbg) (exEnvQ_ok dbg) ht h with ⟨m, rfl⟩ | ⟨x, rfl⟩ | ⟨-, b, l, -, fn, x, sh, y, hj, hb, -⟩
  · exact ⟨by simp, by simp⟩
  · exact ⟨by simp, by simp⟩
  · simp [exRunning] at hj
    rw [hj.1] at hb
    cases hb

/-- `abs(x)` finishes as if nothing had been written: the new object is that of the program `abs` of a `CSR` with the values
`[1, -2, 3]`. -/
example (dbg : Bool) [HasFma ℚ] [HasMinMax ℚ] [HasSqrt ℚ] (out : PyRes (PyThreads ℚ)) :
    exRunning.Step (exEnvQ dbg) (.finish 0) out ↔
      (∃ x, (Prog.un .abs (.mat .csr 2 3 [0, 2, 3] [0, 2, 1] [1, -2, 3] : Prog ℚ)).Eval (exEnvQ dbg) (.ret x) ∧
        out = .ret ⟨exRunning.sess.alloc x, exRunning.jobs.drop 1⟩) ∨
      ∃ e, (Prog.un .abs (.mat .csr 2 3 [0, 2, 3] [0, 2, 1] [1, -2, 3] : Prog ℚ)).Eval (exEnvQ dbg) (.raises e) ∧
        out = .ret ⟨exRunning.sess, exRunning.jobs.drop 1⟩ := by
  obtain ⟨j, p, h1, h2, h3⟩ := threads_atomic mul_comm (exDense_reach dbg) (a := .call (.un .abs) 0) (st := .call (.un .abs) 0)
    (by intro o h; cases h; show Ty.SizeOk 3 (.mat .csr 2 3); decide) (.inl ⟨_, _, rfl, rfl⟩) (env₀ := exEnvQ dbg) ⟨_, rfl, rfl⟩
  simp only [PyThreads.mk.injEq, List.nil_append, List.cons.injEq, true_and, and_true] at h1
  cases h1
  cases h2
  exact h3 exRunning 0 rfl _ (exEnvQ_ok dbg) out

/-- `x @ y` is the native copy `[[5, 0, 6], [0, 7, 0]]` times the `[1, 10, 100]` that `y` was. -/
example (dbg : Bool) [HasFma ℚ] [IdealFma ℚ] [HasMinMax ℚ] [HasSqrt ℚ] (out : PyRes (PyThreads ℚ)) :
    exRunning.Step (exEnvQ dbg) (.finish 1) out ↔
      out = .ret ⟨{ exRunning.sess with floats := [[7, 7, 7], [0, 0, 0], [605, 70]] }, exRunning.jobs.take 1⟩ := by
  obtain ⟨j, d, h1, h2, h3⟩ := threads_value (exDense_reach dbg) (exTame _ rfl) (o := .mat .csr 2 3 0 1 0 (some ⟨2, 3, [0, 2, 3], [0, 2, 1], [5, 6, 7]⟩))
    (l := [1, 10, 100]) rfl rfl trivial (tr := false) (p := 0) ⟨rfl, .inl ⟨rfl, rfl⟩⟩ (r := 2) (c := 3) rfl rfl
  have hj : j = .lin .matmul (.mat .csr ⟨2, 3, [0, 2, 3], [0, 2, 1], [1, -2, 3], some ⟨2, 3, [0, 2, 3], [0, 2, 1], [5, 6, 7]⟩⟩) [3] 1
      [1, 10, 100] := by
    have := (h1 (exEnvQ dbg) (.ret _)).1 ⟨_, _, rfl, rfl, rfl⟩
    simp only [PyRes.ret.injEq, PyThreads.mk.injEq, List.nil_append, List.cons.injEq, true_and, and_true] at this
    exact this.symm
  have hd : d = ⟨[2], [605, 70]⟩ := by
    refine h2.unique ⟨rfl, rfl, fun z hz => ?_⟩
    have hz' : z ∈ [[(0 : Int)], [1]] := mem_indicesOf.2 hz
    rcases List.mem_cons.1 hz' with rfl | hz'
    · decide +kernel
    · cases List.mem_singleton.1 hz'
      decide +kernel
  rw [h3 exRunning 1 (by rw [hj]; rfl), hd]
  rfl

/-- A `COOND` of shape `(2, 3)` with the entries 5 at `(0, 1)` and 7 at `(1, 2)`, and a dense array. -/
def exNdDense : Sess ℚ := ⟨[[0, 1, 1, 2]], [[5, 7], [1, 10, 100]], [.nd [2, 3] 0 0]⟩

theorem exNdDense_reach [HasFma ℚ] (dbg : Bool) : PyThreads.Reach PyEnv.Ok PyThreads.Tame (⟨exNdDense, []⟩ : PyThreads ℚ) := by
  have he := exEnvQ_ok dbg
  refine session_threads (.step (s := ⟨[[0, 1, 1, 2]], [[5, 7]], [.nd [2, 3] 0 0]⟩) (st := .floats [1, 10, 100]) ?_ he trivial rfl)
  refine .step (s := ⟨[[0, 1, 1, 2]], [[5, 7]], []⟩) (st := .nd [2, 3] 0 0) ?_ he ?_ ⟨_, _, rfl, rfl, rfl⟩
  · refine .step (s := ⟨[[0, 1, 1, 2]], [], []⟩) (st := .floats [5, 7]) ?_ he trivial rfl
    exact .step (s := ⟨[], [], []⟩) (st := .ints [0, 1, 1, 2]) .start he trivial rfl
  · refine ⟨?_, ?_⟩
    · have hwf : (CooNd.mk [2, 3] [0, 1, 1, 2] [(5 : ℚ), 7]).WF := ⟨by decide, rfl, fun k hk d hd => by
        have hk : k < 2 := hk
        have hd : d < 2 := hd
        obtain rfl | rfl : k = 0 ∨ k = 1 := by omega
        all_goals obtain rfl | rfl : d = 0 ∨ d = 1 := by omega
        all_goals exact ⟨by show (0 : Int) ≤ _; simp [CooNd.coord], by simp [CooNd.coord]⟩⟩
      exact ⟨by decide, hwf, by show ∀ j ∈ [(0 : Int), 1, 1, 2], j ≤ i64Max; decide⟩
    · show Ty.SizeOk 2 (.nd [2, 3]); decide

/-- `vecdot(x, y)` of that object races with a write to `y`. -/
example [HasFma ℚ] [HasMinMax ℚ] [HasSqrt ℚ] (dbg : Bool) :
    ∃ m₁, (∀ env out, PyThreads.Step env ⟨exNdDense, []⟩ (.lin (.vecdot none) 0 [3] 1) out ↔ out = .ret m₁) ∧
      ∀ env, env.Ok → ∀ out, m₁.Step env (.stmt (.setFloats 1 [0, 0, 0])) out ↔ out = .ub := by
  refine product_races_nd (fn := .vecdot none) mul_comm (exNdDense_reach dbg) ?_ (o := .nd [2, 3] 0 0) (l := [1, 10, 100]) rfl rfl (s := [2, 3]) (rest := [])
    rfl (axis := 1) (by decide) (Or.inl ⟨.inl rfl, rfl⟩) rfl (fun _ _ => ⟨rfl, by decide⟩) rfl
  intro o l ho hl
  cases ho; cases hl
  refine ⟨⟨rfl, by show (8 * ((3 : Nat) : Int)) ≤ _; decide⟩, fun h => h.elim, fun s hs axis rest h1 h2 h3 => ?_⟩
  cases hs
  rcases h2 with ⟨-, h2⟩ | h2
  · obtain rfl : axis = 1 := by have : axis + 1 = 2 := h2; omega
    cases h3
    exact ⟨by decide, by decide, by show (24 * ((2 * 2 * 1 : Nat) : Int)) ≤ _; decide⟩
  · cases h2

end

end Lacuna
