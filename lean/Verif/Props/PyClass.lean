import Verif.Lemmas.PyClass
/-
C58: what validation at construction protects.
-/
namespace Lacuna
variable {V : Type}

/-! ### constructors -/

/-- `CSR(…)` with the default `check=True` raises exactly when the native validation rejects
the arrays; otherwise the object holds a native copy of a well-formed matrix with the given
shape and arrays. -/
theorem csr_new_checked (nrows ncols : Int) (indptr indices : List Int) (data : List V)
    (hi : ∀ j ∈ indices, j ≤ i64Max) (x : PyMat V) :
    PyMat.new .csr nrows ncols indptr indices data true = .ok x ↔
      ∃ a : Csr V, a.WF ∧ a.nrows + 1 ≤ usizeMax ∧ a.ncols ≤ usizeMax ∧
        nrows = a.nrows ∧ ncols = a.ncols ∧ indptr = a.indptr ∧ indices = a.indices ∧ data = a.data ∧
        x = ⟨nrows, ncols, indptr, indices, data, some a.comp⟩ := by
  constructor
  · intro h
    unfold PyMat.new at h
    cases hn : nativeNew .csr nrows ncols indptr indices data true with
    | error e => rw [hn] at h; cases h
    | ok c =>
      obtain ⟨hw, h1, h2, h3, h4, h5, h6, h7⟩ := nativeNew_true_ok hi hn
      rw [hn, nativeNew_false_of_true hn] at h
      cases h
      exact ⟨c.toCsr, hw, h1, h2, h3, h4, h5.symm, h6.symm, h7.symm, rfl⟩
  · rintro ⟨a, hw, h1, h2, rfl, rfl, rfl, rfl, rfl, rfl⟩
    have hn : nativeNew .csr (a.nrows : Int) a.ncols a.indptr a.indices a.data true = .ok a.comp := by
      rw [nativeNew_csr (r' := a.nrows) (c' := a.ncols) (pyUsize_nat (by omega)) (pyUsize_nat h2),
        (csr_fromParts_iff _ _ _ _ _ hi a).2 ⟨h1, rfl, hw⟩]
      rfl
    unfold PyMat.new
    rw [hn, nativeNew_false_of_true hn]
    rfl

/-- `CSC(…)` never raises.  With `check=True` the object has a native copy exactly when the
arrays pass the validation. -/
theorem csc_new_checked (nrows ncols : Int) (indptr indices : List Int) (data : List V)
    (hi : ∀ j ∈ indices, j ≤ i64Max) :
    ∃ x, PyMat.new .csc nrows ncols indptr indices data true = .ok x ∧
      x.nrows = nrows ∧ x.ncols = ncols ∧ x.indptr = indptr ∧ x.indices = indices ∧ x.data = data ∧
      ∀ c, x.handle = some c ↔ ∃ a : Csc V, c = a.comp ∧ a.WF ∧ a.ncols + 1 ≤ usizeMax ∧
        a.nrows ≤ usizeMax ∧ nrows = a.nrows ∧ ncols = a.ncols ∧ indptr = a.indptr ∧
        indices = a.indices ∧ data = a.data := by
  refine ⟨_, rfl, rfl, rfl, rfl, rfl, rfl, fun c => ?_⟩
  show (nativeNew .csc nrows ncols indptr indices data true).toOption = some c ↔ _
  constructor
  · intro h
    cases hn : nativeNew .csc nrows ncols indptr indices data true with
    | error e => rw [hn] at h; cases h
    | ok c' =>
      rw [hn] at h
      cases h
      obtain ⟨hw, h1, h2, h3, h4, h5, h6, h7⟩ := nativeNew_true_ok hi hn
      exact ⟨c.toCsc, rfl, hw, h1, h2, h3, h4, h5.symm, h6.symm, h7.symm⟩
  · rintro ⟨a, rfl, hw, h1, h2, rfl, rfl, rfl, rfl, rfl⟩
    rw [nativeNew_csc (r' := a.nrows) (c' := a.ncols) (pyUsize_nat h2) (pyUsize_nat (by omega)),
      (csc_fromParts_iff _ _ _ _ _ hi a).2 ⟨h1, rfl, hw⟩]
    rfl

section
variable [Zero V] [One V] [Add V] [Sub V] [Mul V] [Div V] [BEq V] [HasFinite V] [HasFloor V]
  [HasPowf V] [HasAbs V]

/-! ### operators on validated objects -/

omit [One V] [HasAbs V] in
/-- One binary operator on validated objects. -/
theorem binMethod_iff (dbg : Bool) (f : Fmt) (op : BinOp) {a b : Comp V} (ha : Held a) (hb : Held b)
    (out : PyRes (PyMat V)) :
    BinMethod dbg f op (PyMat.of f a) (PyMat.of f b) out ↔
      out = match op.kernel f a b with
        | none => .raises .panic
        | some c => if c.Alloc then .ret (PyMat.of f c) else .raises .panic := by
  unfold BinMethod
  rw [ha.operands hb, op.kernel_eq f]
  by_cases hs : a.n = b.n ∧ a.m = b.m
  · rw [if_pos hs]
    have key : ∀ o, Settles (fun N => BinPtrRun dbg (op.countP N) (op.fillP N) a b) o ↔
        o = .ok (binComp op.count op.fill a b) := fun o =>
      settles_iff (a.indices.length + b.indices.length + 1) fun N hN o => by
        obtain ⟨M, rfl⟩ : ∃ M, N = M + 1 := ⟨N - 1, by omega⟩
        exact (op.refines M).run (Comp.WF.ptrOk ha.wf) (Comp.WF.ptrOk hb.wf) ha.mach hb.mach hs.1 hs.2
          (by omega) dbg o
    have hw : PyMat.wrap f (binComp op.count op.fill a b) =
        if (binComp op.count op.fill a b).Alloc then .ret (PyMat.of f (binComp op.count op.fill a b))
        else .raises .panic := by
      by_cases hal : (binComp op.count op.fill a b).Alloc
      · rw [if_pos hal, (op.held ha hb hs.1 hs.2 hal).wrap]
      · rw [if_neg hal]; unfold PyMat.wrap; rw [if_neg hal]
    show (∃ o, _ ∧ out = _) ↔ out = if (binComp op.count op.fill a b).Alloc then _ else _
    rw [← hw]
    constructor
    · rintro ⟨o, ho, rfl⟩
      rw [(key o).1 ho]; rfl
    · rintro rfl
      exact ⟨_, (key _).2 rfl, rfl⟩
  · rw [if_neg hs]
    have key : ∀ o, Settles (fun N => BinPtrRun dbg (op.countP N) (op.fillP N) a b) o ↔
        o = .error .panic := fun o => settles_iff 0 fun N _ o => by
      unfold BinPtrRun; rw [if_neg hs]
    show (∃ o, _ ∧ out = _) ↔ out = .raises .panic
    constructor
    · rintro ⟨o, ho, rfl⟩
      rw [(key o).1 ho]; rfl
    · rintro rfl
      exact ⟨_, (key _).2 rfl, rfl⟩

omit [Add V] [Sub V] [Div V] [HasFinite V] [HasFloor V] [HasPowf V] [HasAbs V] in
theorem scaleMethod_iff (f : Fmt) (alpha : V) {a : Comp V} (ha : Held a) (out : PyRes (PyMat V)) :
    ScaleMethod f alpha (PyMat.of f a) out ↔
      out = .ret (PyMat.of f { a with data := mulScalarData alpha a.data }) := by
  have he : mulScalarData alpha a.data = (if alpha == 1 then a.data
      else if alpha == 0 then a.data.map (fun _ => 0) else a.data.map (· * alpha)) := by
    unfold mulScalarData
    rw [simdMapData_eq]
    simp
  have hl : (mulScalarData alpha a.data).length = a.data.length := by
    rw [he]; split_ifs <;> simp
  unfold ScaleMethod
  rw [ha.operand]
  have key : ∀ o, Settles (fun N => MulScalarPtrRun N alpha a.data) o ↔
      o = .ok (mulScalarData alpha a.data) := fun o =>
    settles_iff (a.data.length + 1) fun N hN o => by
      rw [mul_scalar_ptr alpha a.data ha.data_le (by omega), he]
  show (∃ o, _ ∧ out = _) ↔ _
  constructor
  · rintro ⟨o, ho, rfl⟩
    rw [(key o).1 ho]
    exact (ha.withData hl).wrap f
  · rintro rfl
    exact ⟨_, (key _).2 rfl, ((ha.withData hl).wrap f).symm⟩

omit [Zero V] [One V] [Add V] [Sub V] [Mul V] [Div V] [BEq V] [HasFinite V] [HasFloor V] [HasPowf V] in
theorem absMethod_iff (f : Fmt) {a : Comp V} (ha : Held a) (out : PyRes (PyMat V)) :
    AbsMethod f (PyMat.of f a) out ↔ out = .ret (PyMat.of f { a with data := a.data.map fabs }) := by
  unfold AbsMethod
  rw [ha.operand]
  have key : ∀ o, Settles (fun N => AbsPtrRun N a.data) o ↔ o = .ok (a.data.map fabs) := fun o =>
    settles_iff (a.data.length + 1) fun N hN o => by
      rw [abs_ptr a.data ha.data_le (by omega)]
  have hl : (a.data.map fabs).length = a.data.length := by simp
  show (∃ o, _ ∧ out = _) ↔ _
  constructor
  · rintro ⟨o, ho, rfl⟩
    rw [(key o).1 ho]
    exact (ha.withData hl).wrap f
  · rintro rfl
    exact ⟨_, (key _).2 rfl, ((ha.withData hl).wrap f).symm⟩

/-! ### programs -/

/-- The value of an expression is a matrix that validated objects can hold. -/
theorem MatExpr.value_held {f : Fmt} {e : MatExpr V} (hm : e.Mem) {c : Comp V}
    (h : e.value f = .ok c) : Held c := by
  induction e generalizing c with
  | lit r k ip ix d =>
    obtain ⟨m1, m2, m3, m4⟩ := hm
    obtain ⟨hw, h1, h2, -, -, h5, h6, h7⟩ := nativeNew_true_ok m4 h
    exact ⟨hw, ⟨by rw [h5]; exact m1, by rw [h6]; exact m2, by rw [h7]; exact m3,
      by rw [h6]; exact m4⟩, h1, h2⟩
  | bin op a b iha ihb =>
    unfold MatExpr.value at h
    cases ha : a.value f with
    | error x => rw [ha] at h; cases h
    | ok x =>
    cases hb : b.value f with
    | error x => rw [ha, hb] at h; cases h
    | ok y =>
      rw [ha, hb] at h
      replace h : (match op.kernel f x y with
        | none => Except.error PyErr.panic
        | some c => if c.Alloc then .ok c else .error .panic) = .ok c := h
      rw [op.kernel_eq f] at h
      by_cases hs : x.n = y.n ∧ x.m = y.m
      · rw [if_pos hs] at h
        replace h : (if (binComp op.count op.fill x y).Alloc then
          Except.ok (binComp op.count op.fill x y) else .error PyErr.panic) = .ok c := h
        by_cases hal : (binComp op.count op.fill x y).Alloc
        · rw [if_pos hal] at h
          cases h
          exact op.held (iha hm.1 ha) (ihb hm.2 hb) hs.1 hs.2 hal
        · rw [if_neg hal] at h; cases h
      · rw [if_neg hs] at h; cases h
  | scale alpha a ih =>
    unfold MatExpr.value at h
    cases ha : a.value f with
    | error x => rw [ha] at h; cases h
    | ok x =>
      rw [ha] at h
      cases h
      refine (ih hm ha).withData ?_
      unfold mulScalarData
      rw [simdMapData_eq]
      split_ifs <;> simp
  | abs a ih =>
    unfold MatExpr.value at h
    cases ha : a.value f with
    | error x => rw [ha] at h; cases h
    | ok x =>
      rw [ha] at h
      cases h
      exact (ih hm ha).withData (by simp)

/-- What a run of an expression with value `v` produces. -/
def resOf (f : Fmt) (v : Except PyErr (Comp V)) : PyRes (PyMat V) := .ofExcept (v.map (PyMat.of f))

theorem eval_iff (dbg : Bool) (f : Fmt) (e : MatExpr V) (hm : e.Mem) (hl : f = .csr ∨ e.LitsOk f)
    (out : PyRes (PyMat V)) : e.Eval dbg f out ↔ out = resOf f (e.value f) := by
  induction e generalizing out with
  | lit r k ip ix d =>
    show out = _ ↔ _
    have : PyRes.ofExcept (PyMat.new f r k ip ix d true) = resOf f (nativeNew f r k ip ix d true) := by
      cases hn : nativeNew f r k ip ix d true with
      | ok c =>
        obtain ⟨-, -, -, h3, h4, h5, h6, h7⟩ := nativeNew_true_ok hm.2.2.2 hn
        subst h3 h4 h5 h6 h7
        cases f with
        | csr => unfold PyMat.new; rw [hn, nativeNew_false_of_true hn]; rfl
        | csc => unfold PyMat.new; rw [hn]; rfl
      | error x =>
        rcases hl with rfl | hl
        · unfold PyMat.new; rw [hn]; rfl
        · obtain ⟨c, hc⟩ := hl
          rw [hn] at hc; cases hc
    rw [this]; rfl
  | bin op a b iha ihb =>
    have hla : f = .csr ∨ a.LitsOk f := hl.imp id And.left
    have hlb : f = .csr ∨ b.LitsOk f := hl.imp id And.right
    have iha := iha hm.1 hla
    have ihb := ihb hm.2 hlb
    show (∃ oa, a.Eval dbg f oa ∧ _) ↔ _
    have hv : (MatExpr.bin op a b).value f = (do
      let x ← a.value f
      let y ← b.value f
      match op.kernel f x y with
      | none => .error .panic
      | some c => if c.Alloc then .ok c else .error .panic) := rfl
    rw [hv]
    simp only [iha, exists_eq_left]
    cases ha : a.value f with
    | error x => rfl
    | ok x =>
      show (∃ ob, b.Eval dbg f ob ∧ _) ↔ _
      simp only [ihb, exists_eq_left]
      cases hb : b.value f with
      | error y => rfl
      | ok y =>
        have h1 := binMethod_iff dbg f op (MatExpr.value_held hm.1 ha) (MatExpr.value_held hm.2 hb) out
        show BinMethod dbg f op (PyMat.of f x) (PyMat.of f y) out ↔ _
        rw [h1]
        show _ ↔ out = resOf f (match op.kernel f x y with
          | none => .error .panic
          | some c => if c.Alloc then .ok c else .error .panic)
        cases op.kernel f x y with
        | none => rfl
        | some c =>
          by_cases hal : c.Alloc
          · simp only [hal, if_true]; rfl
          · simp only [hal, if_false]; rfl
  | scale alpha a ih =>
    have ih := ih hm hl
    show (∃ oa, a.Eval dbg f oa ∧ _) ↔ _
    have hv : (MatExpr.scale alpha a).value f = (do
      let x ← a.value f
      pure { x with data := mulScalarData alpha x.data }) := rfl
    rw [hv]
    simp only [ih, exists_eq_left]
    cases ha : a.value f with
    | error x => rfl
    | ok x => exact scaleMethod_iff f alpha (MatExpr.value_held (e := a) hm ha) out
  | abs a ih =>
    have ih := ih hm hl
    show (∃ oa, a.Eval dbg f oa ∧ _) ↔ _
    have hv : (MatExpr.abs a).value f = (do
      let x ← a.value f
      pure { x with data := x.data.map fabs }) := rfl
    rw [hv]
    simp only [ih, exists_eq_left]
    cases ha : a.value f with
    | error x => rfl
    | ok x => exact absMethod_iff f (MatExpr.value_held (e := a) hm ha) out

/-- C58 (CSR): a program built from `CSR(…)` calls with the default check — on *any* arrays —
and the modelled operators has exactly one outcome, in debug and release builds and for every
schedule: it raises, or returns the list-level result.  It never has undefined behaviour. -/
theorem csr_program_safe (dbg : Bool) (e : MatExpr V) (hm : e.Mem) (out : PyRes (PyMat V)) :
    e.Eval dbg .csr out ↔ out = match e.value .csr with
      | .ok c => .ret (PyMat.of .csr c)
      | .error x => .raises x := by
  rw [eval_iff dbg .csr e hm (.inl rfl)]
  unfold resOf
  cases e.value .csr <;> rfl

/-- What a CSR program returns is a well-formed matrix. -/
theorem csr_program_wf (dbg : Bool) (e : MatExpr V) (hm : e.Mem) {x : PyMat V}
    (h : e.Eval dbg .csr (.ret x)) : ∃ a : Csr V, a.WF ∧ x = PyMat.of .csr a.comp := by
  rw [csr_program_safe dbg e hm] at h
  cases hv : e.value .csr with
  | error y => rw [hv] at h; cases h
  | ok c =>
    rw [hv] at h
    cases h
    exact ⟨c.toCsr, (MatExpr.value_held hm hv).wf, rfl⟩

/-- C58 (CSC, valid literals): the same, provided that every literal passes the validation. -/
theorem csc_program_safe (dbg : Bool) (e : MatExpr V) (hm : e.Mem) (hl : e.LitsOk .csc)
    (out : PyRes (PyMat V)) :
    e.Eval dbg .csc out ↔ out = match e.value .csc with
      | .ok c => .ret (PyMat.of .csc c)
      | .error x => .raises x := by
  rw [eval_iff dbg .csc e hm (.inr hl)]
  unfold resOf
  cases e.value .csc <;> rfl

/-- C58 (matrix–vector product): the value of a CSR program applied to any vector. -/
theorem csr_program_matvec_safe [HasFma V] (dbg : Bool) (e : MatExpr V) (hm : e.Mem) (v : List V)
    {x : PyMat V} (h : e.Eval dbg .csr (.ret x)) (out : PyRes (List V)) :
    MatVecMethod dbg v x out ↔ out = if (v.length : Int) = x.ncols then
        .ret ((List.range x.nrows.toNat).map fun i =>
          ((Comp.mk x.nrows.toNat x.ncols.toNat x.indptr x.indices x.data).row i).foldl
            (fun acc e => mulAdd e.2 (v.getD e.1.toNat 0) acc) 0)
      else .raises .valueError := by
  rw [csr_program_safe dbg e hm] at h
  cases hv : e.value .csr with
  | error y => rw [hv] at h; cases h
  | ok c =>
    rw [hv] at h
    cases h
    have hc := MatExpr.value_held hm hv
    unfold MatVecMethod
    by_cases hx : (v.length : Int) = (PyMat.of .csr c).ncols
    · rw [if_neg (by simpa using hx), if_pos hx, hc.operand]
      have hx' : v.length = c.toCsr.ncols := by
        have : (v.length : Int) = c.m := hx
        show v.length = c.m
        omega
      have key : ∀ o, Settles (fun N => SpmvPtrRun dbg N c.toCsr v) o ↔ o =
          .ok ((List.range c.n).map fun i =>
            (c.row i).foldl (fun acc e => mulAdd e.2 (v.getD e.1.toNat 0) acc) 0) := fun o =>
        settles_iff (c.indices.length + 1) fun N hN o => by
          rw [spmv_csr_ptr (a := c.toCsr) (Comp.WF.ptrOk hc.wf) (Comp.WFU.idxOk hc.wf.wfu) hc.mach v dbg
            (show c.indices.length < N by omega), if_pos hx']
          rfl
      show (∃ o, _ ∧ out = _) ↔ _
      constructor
      · rintro ⟨o, ho, rfl⟩
        rw [(key o).1 ho]; rfl
      · rintro rfl
        exact ⟨_, (key _).2 rfl, rfl⟩
    · rw [if_pos (by simpa using hx), if_neg hx]

/-! ### programs with CSC literals that fail the validation -/

/-- Expressions that use only the operators that insist on a native copy. -/
def MatExpr.HandleOnly : MatExpr V → Prop
  | .lit .. => True
  | .bin op a b => (op = .add ∨ op = .sub ∨ op = .mul) ∧ a.HandleOnly ∧ b.HandleOnly
  | .scale _ a => a.HandleOnly
  | .abs _ => False

/-- C58 (CSC, any literals): sums, differences, products and scalar multiples of `CSC(…)`
objects have no undefined behaviour and terminate, whatever the arrays. -/
theorem csc_handle_program_safe (dbg : Bool) (e : MatExpr V) (hm : e.Mem) (ho : e.HandleOnly)
    (out : PyRes (PyMat V)) (h : e.Eval dbg .csc out) :
    out ≠ .ub ∧ out ≠ .hang ∧ ∀ x c, out = .ret x → x.handle = some c → Held c ∧ x = PyMat.of .csc c := by
  induction e generalizing out with
  | lit r k ip ix d =>
    replace h : out = .ret ⟨r, k, ip, ix, d, (nativeNew .csc r k ip ix d true).toOption⟩ := h
    subst h
    refine ⟨by simp, by simp, ?_⟩
    rintro x c hxc hc
    cases hxc
    replace hc : (nativeNew .csc r k ip ix d true).toOption = some c := hc
    cases hn : nativeNew .csc r k ip ix d true with
    | error y => rw [hn] at hc; cases hc
    | ok c' =>
      rw [hn] at hc
      cases hc
      have hv : (MatExpr.lit r k ip ix d : MatExpr V).value .csc = .ok c := hn
      obtain ⟨-, -, -, h3, h4, h5, h6, h7⟩ := nativeNew_true_ok hm.2.2.2 hn
      subst h3 h4 h5 h6 h7
      exact ⟨MatExpr.value_held hm hv, rfl⟩
  | bin op a b iha ihb =>
    obtain ⟨oa, hoa, h⟩ := h
    obtain ⟨a1, a2, a3⟩ := iha hm.1 ho.2.1 oa hoa
    cases oa with
    | raises y => cases h; exact ⟨by simp, by simp, by simp⟩
    | ub => exact absurd rfl a1
    | hang => exact absurd rfl a2
    | ret x =>
    obtain ⟨ob, hob, h⟩ := h
    obtain ⟨b1, b2, b3⟩ := ihb hm.2 ho.2.2 ob hob
    cases ob with
    | raises y => cases h; exact ⟨by simp, by simp, by simp⟩
    | ub => exact absurd rfl b1
    | hang => exact absurd rfl b2
    | ret y =>
      replace h : BinMethod dbg .csc op x y out := h
      have hp : binPath .csc op = .handle := by rcases ho.1 with rfl | rfl | rfl <;> rfl
      cases hx : x.handle with
      | none =>
        unfold BinMethod at h
        rw [show operands .csc (binPath .csc op) x y = .error .runtimeError by
          rw [hp]; unfold operands; rw [hx]] at h
        cases h; exact ⟨by simp, by simp, by simp⟩
      | some cx =>
      cases hy : y.handle with
      | none =>
        unfold BinMethod at h
        rw [show operands .csc (binPath .csc op) x y = .error .runtimeError by
          rw [hp]; unfold operands; rw [hx, hy]] at h
        cases h; exact ⟨by simp, by simp, by simp⟩
      | some cy =>
        obtain ⟨k1, rfl⟩ := a3 x cx rfl hx
        obtain ⟨k2, rfl⟩ := b3 y cy rfl hy
        rw [binMethod_iff dbg .csc op k1 k2, op.kernel_eq] at h
        by_cases hs : cx.n = cy.n ∧ cx.m = cy.m
        · rw [if_pos hs] at h
          by_cases hal : (binComp op.count op.fill cx cy).Alloc
          · simp only [hal, if_true] at h
            subst h
            refine ⟨by simp, by simp, ?_⟩
            rintro x c hxc hcc
            cases hxc
            cases hcc
            exact ⟨op.held k1 k2 hs.1 hs.2 hal, rfl⟩
          · simp only [hal, if_false] at h
            subst h; exact ⟨by simp, by simp, by simp⟩
        · rw [if_neg hs] at h
          cases h; exact ⟨by simp, by simp, by simp⟩
  | scale alpha a ih =>
    obtain ⟨oa, hoa, h⟩ := h
    obtain ⟨a1, a2, a3⟩ := ih hm ho oa hoa
    cases oa with
    | raises y => cases h; exact ⟨by simp, by simp, by simp⟩
    | ub => exact absurd rfl a1
    | hang => exact absurd rfl a2
    | ret x =>
      replace h : ScaleMethod .csc alpha x out := h
      cases hx : x.handle with
      | none =>
        unfold ScaleMethod at h
        rw [show operand .csc (scalePath .csc) x = .error .runtimeError by
          unfold operand scalePath; rw [hx]] at h
        cases h; exact ⟨by simp, by simp, by simp⟩
      | some cx =>
        obtain ⟨k1, rfl⟩ := a3 x cx rfl hx
        have hv := (scaleMethod_iff .csc alpha k1 out).1 h
        subst hv
        refine ⟨by simp, by simp, ?_⟩
        rintro x c hxc hcc
        cases hxc
        cases hcc
        refine ⟨k1.withData ?_, rfl⟩
        unfold mulScalarData
        rw [simdMapData_eq]
        split_ifs <;> simp
  | abs a ih => exact ho.elim

/-! ### the default check does not protect CSC -/

/-- Pointers that jump past the end of the arrays and come back (cf. `exJump`), one entry. -/
def jump (x : V) : Comp V := ⟨2, 3, [0, 5, 1], [0], [x]⟩

/-- `CSC(indptr=[0, 5, 1], indices=[0], data=[x], shape=(3, 2))` with the default `check=True`. -/
def jumpLit (x : V) : MatExpr V := .lit 3 2 [0, 5, 1] [0] [x]

omit [One V] [HasAbs V] in
theorem jump_count (op : BinOp) (x : V) (F i : Nat) (hi : i < 2) :
    countIter false (op.countP (F + 2)) (jump x) (jump x) i = .error .ub := by
  rcases i with _ | _ | i
  · cases op <;> rfl
  · cases op <;> rfl
  · omega

omit [One V] [HasAbs V] in
theorem jump_run (op : BinOp) (x : V) (o : Except Fault (Comp V)) :
    Settles (fun N => BinPtrRun false (op.countP N) (op.fillP N) (jump x) (jump x)) o ↔
      o = .error .ub := by
  refine settles_iff 2 fun N hN o => ?_
  obtain ⟨F, rfl⟩ : ∃ F, N = F + 2 := ⟨N - 2, by omega⟩
  unfold BinPtrRun
  rw [if_pos ⟨rfl, rfl⟩]
  constructor
  · rintro ⟨oc, hoc, h⟩
    cases oc with
    | error e =>
      obtain ⟨i, hi, he⟩ := hoc
      rw [jump_count op x F i hi] at he
      cases he
      exact h
    | ok l =>
      exfalso
      have h2 : (List.range 2).map (countIter false (op.countP (F + 2)) (jump x) (jump x))
          = l.map .ok := hoc
      cases l with
      | nil => cases h2
      | cons y ys =>
        simp only [List.range_succ, List.range_zero, List.nil_append, List.cons_append, List.map_cons,
          List.cons.injEq] at h2
        rw [jump_count op x F 0 (by omega)] at h2
        exact absurd h2.1 (by simp)
  · rintro rfl
    exact ⟨.error .ub, ⟨0, by show 0 < 2; omega, jump_count op x F 0 (by omega)⟩, rfl⟩

/-- The literal is accepted (no exception), but holds no native copy. -/
theorem jumpLit_accepted (x : V) (dbg : Bool) (out : PyRes (PyMat V)) :
    (jumpLit x).Eval dbg .csc out ↔ out = .ret ⟨3, 2, [0, 5, 1], [0], [x], none⟩ := by
  show out = _ ↔ _
  rfl

/-- C58 (negative): dividing (`divide`, `floor_divide`, `remainder`, `power`) two `CSC` objects
that were constructed with validation switched on can read outside the arrays; for these arrays
every run of a release build does. -/
theorem csc_checked_ub (op : BinOp) (hop : op = .div ∨ op = .floordiv ∨ op = .rem ∨ op = .pow) (x : V)
    (out : PyRes (PyMat V)) :
    (MatExpr.bin op (jumpLit x) (jumpLit x)).Eval false .csc out ↔ out = .ub := by
  show (∃ oa, (jumpLit x).Eval false .csc oa ∧ _) ↔ _
  simp only [jumpLit_accepted, exists_eq_left]
  show BinMethod false .csc op _ _ out ↔ _
  unfold BinMethod
  rw [show operands .csc (binPath .csc op) (⟨3, 2, [0, 5, 1], [0], [x], none⟩ : PyMat V)
    ⟨3, 2, [0, 5, 1], [0], [x], none⟩ = .ok (jump x, jump x) by
      rcases hop with rfl | rfl | rfl | rfl <;> rfl]
  show (∃ o, _ ∧ out = _) ↔ _
  simp only [jump_run, exists_eq_left]
  rfl

/-- C58 (negative): `abs(a)` of an invalid `CSC` object returns an object whose native copy was
built without validation; every binary operator on it then reads outside the arrays. -/
theorem csc_abs_ub (op : BinOp) (x : V) (out : PyRes (PyMat V)) :
    (MatExpr.bin op (.abs (jumpLit x)) (.abs (jumpLit x))).Eval false .csc out ↔ out = .ub := by
  have habs : ∀ oa, (MatExpr.abs (jumpLit x)).Eval false .csc oa ↔
      oa = .ret ⟨3, 2, [0, 5, 1], [0], [fabs x], some (jump (fabs x))⟩ := by
    intro oa
    show (∃ ob, (jumpLit x).Eval false .csc ob ∧ _) ↔ _
    simp only [jumpLit_accepted, exists_eq_left]
    have key : ∀ o, Settles (fun N => AbsPtrRun N [x]) o ↔ o = .ok [fabs x] := fun o =>
      settles_iff 2 fun N hN o => by rw [abs_ptr [x] (show 1 ≤ usizeMax by decide) (show 1 < N from hN)]; rfl
    unfold PyRes.Then
    dsimp only
    unfold AbsMethod
    rw [show operand .csc .parts (⟨3, 2, [0, 5, 1], [0], [x], none⟩ : PyMat V) = .ok (jump x) from rfl]
    show (∃ o, Settles (fun N => AbsPtrRun N [x]) o ∧
      oa = (PyRes.ofKernel o).bind fun d => PyMat.wrap .csc { jump x with data := d }) ↔ _
    simp only [key, exists_eq_left]
    have hw : PyMat.wrap .csc (jump (fabs x)) =
        .ret ⟨3, 2, [0, 5, 1], [0], [fabs x], some (jump (fabs x))⟩ := by
      unfold PyMat.wrap
      have h8 : 8 * ((1 : Nat) : Int) ≤ i64Max := by decide
      rw [if_pos ⟨h8, h8⟩]
      rfl
    have hb : ((PyRes.ofKernel (Except.ok [fabs x])).bind fun d =>
        PyMat.wrap .csc { jump x with data := d }) = PyMat.wrap .csc (jump (fabs x)) := by
      unfold PyRes.ofKernel PyRes.bind; rfl
    rw [hb, hw]
  show (∃ oa, (MatExpr.abs (jumpLit x)).Eval false .csc oa ∧ _) ↔ _
  simp only [habs, exists_eq_left]
  show BinMethod false .csc op _ _ out ↔ _
  unfold BinMethod
  rw [show operands .csc (binPath .csc op)
    (⟨3, 2, [0, 5, 1], [0], [fabs x], some (jump (fabs x))⟩ : PyMat V)
    ⟨3, 2, [0, 5, 1], [0], [fabs x], some (jump (fabs x))⟩ = .ok (jump (fabs x), jump (fabs x)) by
      cases op <;> rfl]
  show (∃ o, _ ∧ out = _) ↔ _
  simp only [jump_run, exists_eq_left]
  rfl

/-- The same arrays as a `CSR` literal raise `ValueError`. -/
theorem jump_csr_raises (x : V) (dbg : Bool) (out : PyRes (PyMat V)) :
    (MatExpr.lit 2 3 [0, 5, 1] [0] [x]).Eval dbg .csr out ↔ out = .raises .valueError := by
  show out = _ ↔ _
  rfl

/-- The out-of-bounds read is also possible in a debug build. -/
theorem csc_checked_ub_debug (op : BinOp) (hop : op = .div ∨ op = .floordiv ∨ op = .rem ∨ op = .pow)
    (x : V) : (MatExpr.bin op (jumpLit x) (jumpLit x)).Eval true .csc .ub := by
  refine ⟨_, (jumpLit_accepted x true _).2 rfl, _, (jumpLit_accepted x true _).2 rfl, ?_⟩
  show BinMethod true .csc op _ _ .ub
  unfold BinMethod
  rw [show operands .csc (binPath .csc op) (⟨3, 2, [0, 5, 1], [0], [x], none⟩ : PyMat V)
    ⟨3, 2, [0, 5, 1], [0], [x], none⟩ = .ok (jump x, jump x) by
      rcases hop with rfl | rfl | rfl | rfl <;> rfl]
  refine ⟨.error .ub, ⟨2, fun N hN => ?_⟩, rfl⟩
  obtain ⟨F, rfl⟩ : ∃ F, N = F + 2 := ⟨N - 2, by omega⟩
  show BinPtrRun true (op.countP (F + 2)) (op.fillP (F + 2)) (jump x) (jump x) (.error .ub)
  unfold BinPtrRun
  rw [if_pos ⟨rfl, rfl⟩]
  refine ⟨.error .ub, ⟨0, by show 0 < 2; omega, ?_⟩, rfl⟩
  cases op <;> rfl

end

/-! ### examples -/

section
local instance : HasFinite Int := ⟨fun _ => true⟩
local instance : HasFloor Int := ⟨fun x => x⟩
local instance : HasPowf Int := ⟨fun x y => x ^ y.toNat⟩
local instance : HasAbs Int := ⟨fun x => |x|⟩
local instance : HasFma Int := ⟨fun a b c => a * b + c⟩

/-- `abs(CSR(…exA…) + CSR(…exB…) * 3)`. -/
def exProg : MatExpr Int :=
  .abs (.bin .add (.lit 2 3 [0, 2, 3] [0, 2, 1] [5, 6, 7]) (.scale 3 (.lit 2 3 [0, 2, 2] [0, 1] [-5, 4])))

theorem exProg_mem : exProg.Mem := by
  refine ⟨⟨?_, ?_, ?_, ?_⟩, ⟨?_, ?_, ?_, ?_⟩⟩ <;> decide

theorem exProg_value : exProg.value .csr = .ok ⟨2, 3, [0, 3, 4], [0, 1, 2, 1], [10, 12, 6, 7]⟩ := by
  decide +kernel

example (dbg : Bool) (out : PyRes (PyMat Int)) : exProg.Eval dbg .csr out ↔
    out = .ret ⟨2, 3, [0, 3, 4], [0, 1, 2, 1], [10, 12, 6, 7],
      some ⟨2, 3, [0, 3, 4], [0, 1, 2, 1], [10, 12, 6, 7]⟩⟩ := by
  rw [csr_program_safe dbg exProg exProg_mem, exProg_value]; rfl

example (dbg : Bool) (x : PyMat Int) (h : exProg.Eval dbg .csr (.ret x)) (out : PyRes (List Int)) :
    MatVecMethod dbg [1, 10, 100] x out ↔ out = .ret [730, 70] := by
  rw [csr_program_matvec_safe dbg exProg exProg_mem _ h]
  rw [csr_program_safe dbg exProg exProg_mem, exProg_value] at h
  cases h
  rw [if_pos (by rfl)]
  constructor <;> (rintro rfl; rfl)

/-- Two CSC literals of different shape: the panic of `assert_eq!` reaches Python. -/
def exMismatch : MatExpr Int := .bin .div (.lit 1 1 [0, 1] [0] [5]) (.lit 1 2 [0, 1, 1] [0] [2])

example (dbg : Bool) (out : PyRes (PyMat Int)) :
    exMismatch.Eval dbg .csc out ↔ out = .raises .panic := by
  have hm : exMismatch.Mem := by refine ⟨⟨?_, ?_, ?_, ?_⟩, ⟨?_, ?_, ?_, ?_⟩⟩ <;> decide
  have hl : exMismatch.LitsOk .csc := ⟨⟨_, rfl⟩, ⟨_, rfl⟩⟩
  rw [csc_program_safe dbg exMismatch hm hl, show exMismatch.value .csc = .error .panic from rfl]

/-- An invalid literal in a handle-only program. -/
def exInvalidSum : MatExpr Int := .bin .add (jumpLit 7) (jumpLit 7)

example (dbg : Bool) (out : PyRes (PyMat Int)) (h : exInvalidSum.Eval dbg .csc out) :
    out ≠ .ub ∧ out ≠ .hang := by
  have hm : exInvalidSum.Mem := by refine ⟨⟨?_, ?_, ?_, ?_⟩, ⟨?_, ?_, ?_, ?_⟩⟩ <;> decide
  have ho : exInvalidSum.HandleOnly := ⟨.inl rfl, trivial, trivial⟩
  have := csc_handle_program_safe dbg exInvalidSum hm ho out h
  exact ⟨this.1, this.2.1⟩

end

end Lacuna
