import Verif.Lemmas.PyProgNd
import Verif.Spec.PySession
/-
Lemmas for Props/PySession.
-/
set_option linter.unusedSectionVars false

namespace Lacuna
variable {V : Type}

/-! ### literals -/

theorem nativeNew_good {f : Fmt} {a : Comp V} (h : (SpVal.mat f a).Good) :
    nativeNew f (f.rows a) (f.cols a) a.indptr a.indices a.data true = .ok a := by
  have hh := h.held
  have h1 := hh.n_le
  have h2 := hh.m_le
  cases f with
  | csr =>
    show nativeNew .csr (a.n : Int) (a.m : Int) _ _ _ _ = _
    rw [nativeNew_csr (r' := a.n) (c' := a.m) (pyUsize_nat (by omega)) (pyUsize_nat h2),
      (csr_fromParts_iff a.n a.m a.indptr a.indices a.data hh.wf.i64 ⟨a.n, a.m, a.indptr, a.indices, a.data⟩).2
        ⟨h1, rfl, hh.wf⟩]
    rfl
  | csc =>
    show nativeNew .csc (a.m : Int) (a.n : Int) _ _ _ _ = _
    rw [nativeNew_csc (r' := a.m) (c' := a.n) (pyUsize_nat h2) (pyUsize_nat (by omega)),
      (csc_fromParts_iff a.m a.n a.indptr a.indices a.data hh.wf.i64 ⟨a.m, a.n, a.indptr, a.indices, a.data⟩).2
        ⟨h1, rfl, hh.wf⟩]
    rfl

section
variable [Zero V] [One V] [Add V] [Sub V] [Mul V] [Div V] [Neg V] [BEq V] [NatCast V] [HasFinite V]
  [HasFloor V] [HasPowf V] [HasAbs V] [HasLt V] [HasNan V]

theorem map_toNat_ofNat (l : List Nat) : (l.map Int.ofNat).map Int.toNat = l := by
  induction l with
  | nil => rfl
  | cons x l ih => simp only [List.map_cons, ih]; simp

theorem lit_check {v : SpVal V} (h : v.Good) : v.lit.check = .ok v.ty := by
  cases v with
  | mat f a =>
    show (match nativeNew f (f.rows a) (f.cols a) a.indptr a.indices a.data true with | .ok _ => _ | .error e => _) = _
    rw [nativeNew_good h]
    rfl
  | coo a => rfl
  | nd a =>
    show Except.ok (Ty.nd ((a.shape.map Int.ofNat).map Int.toNat)) = _
    rw [map_toNat_ofNat]; rfl

theorem lit_bound (v : SpVal V) : v.lit.bound = v.nnz := by cases v <;> rfl

theorem lit_fits {v : SpVal V} (h : v.Good) : v.lit.Fits := by
  unfold Prog.Fits
  rw [lit_check h, lit_bound]
  exact h.2

theorem lit_small {v : SpVal V} (h : v.Good) : v.lit.Small := by
  have := lit_fits h
  cases v <;> exact this

theorem lit_litsOk {v : SpVal V} (h : v.Good) : v.lit.LitsOk := by
  cases v with
  | mat f a =>
    refine ⟨h.held.wf.i64, ?_⟩
    rintro rfl
    exact ⟨a, nativeNew_good h⟩
  | coo a =>
    refine ⟨by simp, by simp, ?_, ?_⟩
    · simpa only [Int.toNat_natCast] using h.1.1
    · simpa only [Int.toNat_natCast] using h.1.2
  | nd a =>
    refine ⟨by simp, ?_, ?_⟩
    · rw [map_toNat_ofNat]; exact h.1.1
    · rw [map_toNat_ofNat]; exact h.1.2

theorem lit_value {v : SpVal V} (h : v.Good) (env : PyEnv V) : v.lit.value env = .ok v := by
  cases v with
  | mat f a => show (nativeNew _ _ _ _ _ _ true).map _ = _; rw [nativeNew_good h]; rfl
  | coo a => rfl
  | nd a => show Except.ok (SpVal.nd ⟨(a.shape.map Int.ofNat).map Int.toNat, _, _⟩) = _; rw [map_toNat_ofNat]

theorem lit_eval {v : SpVal V} (h : v.Good) {env : PyEnv V} (he : env.Ok) (out : PyRes (PyObj V)) :
    v.lit.Eval env out ↔ out = .ret v.obj := by
  rw [(Prog.step he (lit_litsOk h) (lit_small h)).2, lit_value h]; rfl

/-- A call is a program on the constructor call of its operand. -/
theorem on_eval {v : SpVal V} (h : v.Good) {env : PyEnv V} (he : env.Ok) (fn : Fn V) (out : PyRes (PyObj V)) :
    (fn.on v.lit).Eval env out ↔ fn.Call env v.obj out := by
  cases fn <;>
  · show (∃ oa, v.lit.Eval env oa ∧ oa.Then _ out) ↔ _
    simp only [lit_eval h he, exists_eq_left]
    exact Iff.rfl

theorem on_litsOk {v : SpVal V} (h : v.Good) (fn : Fn V) : (fn.on v.lit).LitsOk := by
  cases fn <;> exact lit_litsOk h

theorem on_small {v : SpVal V} (h : v.Good) {fn : Fn V} (hf : (fn.on v.lit).Fits) : (fn.on v.lit).Small := by
  cases fn <;> exact ⟨lit_small h, hf⟩

theorem bin_eval {v w : SpVal V} (hv : v.Good) (hw : w.Good) {env : PyEnv V} (he : env.Ok) (op : BinOp) (out : PyRes (PyObj V)) :
    (Prog.bin op v.lit w.lit).Eval env out ↔ BinObj env op v.obj w.obj out := by
  show (∃ oa, v.lit.Eval env oa ∧ oa.Then (fun x out => ∃ ob, w.lit.Eval env ob ∧ _) out) ↔ _
  simp only [lit_eval hv he, lit_eval hw he, exists_eq_left]
  exact Iff.rfl

/-! ### objects of a session -/

/-- An object whose native copy and whose arrays are valid, of one shape. -/
def RefObj.Ok (s : Sess V) : RefObj V → Prop
  | .mat f r c p i d h => ∃ a : Comp V, h = some a ∧ (SpVal.mat f a).Good ∧ r = f.rows a ∧ c = f.cols a ∧
      ∃ P I D, s.ints[p]? = some P ∧ s.ints[i]? = some I ∧ s.floats[d]? = some D ∧ (SpVal.mat f ⟨a.n, a.m, P, I, D⟩).Good
  | .coo r c i j d h => ∃ a : Coo V, h = some a ∧ (SpVal.coo a).Good ∧ r = a.nrows ∧ c = a.ncols ∧
      ∃ I J D, s.ints[i]? = some I ∧ s.ints[j]? = some J ∧ s.floats[d]? = some D ∧ (SpVal.coo ⟨a.nrows, a.ncols, I, J, D⟩).Good
  | .nd sh i d => ∃ a : CooNd V, (SpVal.nd a).Good ∧ sh = a.shape.map Int.ofNat ∧
      s.ints[i]? = some a.indices ∧ s.floats[d]? = some a.data

theorem int_of {s : Sess V} {a : Nat} {l : List Int} (h : s.ints[a]? = some l) : s.int a = l := by
  unfold Sess.int; rw [List.getD_eq_getElem?_getD, h]; rfl
theorem float_of {s : Sess V} {a : Nat} {l : List V} (h : s.floats[a]? = some l) : s.float a = l := by
  unfold Sess.float; rw [List.getD_eq_getElem?_getD, h]; rfl

theorem SpVal.withData_ty (v : SpVal V) (d : List V) : (v.withData d).ty = v.ty := by
  cases v with
  | mat f a => cases f <;> rfl
  | coo a => rfl
  | nd a => rfl
theorem SpVal.withData_nnz (v : SpVal V) (d : List V) : (v.withData d).nnz = d.length := by cases v <;> rfl

theorem SpVal.Good.withData {v : SpVal V} (h : v.Good) {d : List V} (hd : d.length = v.nnz) : (v.withData d).Good := by
  refine ⟨?_, by rw [v.withData_ty, v.withData_nnz, hd]; exact h.2⟩
  cases v with
  | mat f a =>
    have hd : d.length = a.data.length := hd
    have hw : a.WF := h.1
    exact ⟨hw.ptr_length, by show d.length = a.indices.length; rw [hd]; exact hw.data_length, hw.ptr_first,
      by show _ = (a.indices.length : Int); exact hw.ptr_last, hw.ptr_mono, hw.bounds, hw.sorted, hw.i64⟩
  | coo a =>
    have hd : d.length = a.data.length := hd
    refine ⟨?_, h.1.2⟩
    have hw := h.1.1
    exact ⟨by show a.row.length = d.length; rw [hd]; exact hw.row_length,
      by show a.col.length = d.length; rw [hd]; exact hw.col_length, hw.row_bounds, hw.col_bounds⟩
  | nd a =>
    have hd : d.length = a.data.length := hd
    refine ⟨?_, h.1.2⟩
    have hw := h.1.1
    exact ⟨hw.rank, by show a.indices.length = d.length * _; rw [hd]; exact hw.length,
      fun k hk => hw.bounds k (by rw [← hd]; exact hk)⟩

/-- What an object that is all right looks like. -/
theorem RefObj.Ok.form {s : Sess V} {o : RefObj V} (h : o.Ok s) : ∃ v w D, v.Good ∧ w.Good ∧ v.ty = w.ty ∧
    s.floats[o.dataRef]? = some D ∧ o.now s = w ∧ o.snap s = (if o.native then v else w) := by
  cases o with
  | mat f r c p i d hd =>
    obtain ⟨a, rfl, hg, rfl, rfl, P, I, D, hp, hi, hD, hw⟩ := h
    refine ⟨.mat f a, .mat f ⟨a.n, a.m, P, I, D⟩, D, hg, hw, by cases f <;> rfl, hD, ?_, rfl⟩
    cases f <;>
    · show SpVal.mat _ _ = SpVal.mat _ _
      rw [int_of hp, int_of hi, float_of hD]
      simp [Fmt.rows, Fmt.cols]
  | coo r c i j d hd =>
    obtain ⟨a, rfl, hg, rfl, rfl, I, J, D, hp, hi, hD, hw⟩ := h
    refine ⟨.coo a, .coo ⟨a.nrows, a.ncols, I, J, D⟩, D, hg, hw, rfl, hD, ?_, rfl⟩
    show SpVal.coo _ = SpVal.coo _
    rw [int_of hp, int_of hi, float_of hD]
    simp
  | nd sh i d =>
    obtain ⟨a, hg, rfl, hi, hD⟩ := h
    have : RefObj.now s (.nd (a.shape.map Int.ofNat) i d) = SpVal.nd a := by
      show SpVal.nd _ = SpVal.nd _
      rw [int_of hi, float_of hD, map_toNat_ofNat]
    exact ⟨.nd a, .nd a, _, hg, hg, rfl, hD, this, this⟩

theorem RefObj.Ok.good {s : Sess V} {o : RefObj V} (h : o.Ok s) (frozen : Bool) : (o.view s frozen).Good := by
  obtain ⟨v, w, D, hv, hw, -, -, h1, h2⟩ := h.form
  unfold RefObj.view
  cases frozen
  · simp only [Bool.false_eq_true, if_false, h1]; exact hw
  · simp only [if_true, h2]
    split
    · exact hv
    · exact hw

theorem RefObj.Ok.ty_eq {s : Sess V} {o : RefObj V} (h : o.Ok s) (frozen : Bool) : (o.view s frozen).ty = (o.now s).ty := by
  obtain ⟨v, w, D, -, -, ht, -, h1, h2⟩ := h.form
  unfold RefObj.view
  cases frozen
  · rfl
  · simp only [if_true, h1, h2]
    split
    · exact ht
    · rfl

/-- The object, its native copy as an object, and its arrays as an object. -/
inductive Views : PyObj V → PyObj V → PyObj V → Prop
  | mat (f : Fmt) (a : Comp V) (P I : List Int) (D : List V) : Views
      (.mat f ⟨f.rows a, f.cols a, P, I, D, some a⟩)
      (.mat f ⟨f.rows a, f.cols a, a.indptr, a.indices, a.data, some a⟩)
      (.mat f ⟨f.rows a, f.cols a, P, I, D, some ⟨a.n, a.m, P, I, D⟩⟩)
  | coo (a : Coo V) (I J : List Int) (D : List V) : Views
      (.coo ⟨a.nrows, a.ncols, I, J, D, some a⟩)
      (.coo ⟨a.nrows, a.ncols, a.row, a.col, a.data, some a⟩)
      (.coo ⟨a.nrows, a.ncols, I, J, D, some ⟨a.nrows, a.ncols, I, J, D⟩⟩)
  | nd (x : PyNd V) : Views (.nd x) (.nd x) (.nd x)

theorem RefObj.Ok.views {s : Sess V} {o : RefObj V} (h : o.Ok s) : Views (o.get s) (o.snap s).obj (o.now s).obj := by
  cases o with
  | mat f r c p i d hd =>
    obtain ⟨a, rfl, hg, rfl, rfl, P, I, D, hp, hi, hD, hw⟩ := h
    have hget : RefObj.get s (.mat f (f.rows a) (f.cols a) p i d (some a)) =
        .mat f ⟨f.rows a, f.cols a, P, I, D, some a⟩ := by
      show PyObj.mat _ _ = _
      rw [int_of hp, int_of hi, float_of hD]
    have hnow : (RefObj.now s (.mat f (f.rows a) (f.cols a) p i d (some a))).obj =
        .mat f ⟨f.rows a, f.cols a, P, I, D, some ⟨a.n, a.m, P, I, D⟩⟩ := by
      cases f <;>
      · show PyObj.mat _ _ = _
        simp only [PyMat.of, int_of hp, int_of hi, float_of hD]
        simp [Fmt.rows, Fmt.cols]
    rw [hget, hnow]
    exact .mat f a P I D
  | coo r c i j d hd =>
    obtain ⟨a, rfl, hg, rfl, rfl, I, J, D, hp, hi, hD, hw⟩ := h
    have hget : RefObj.get s (.coo a.nrows a.ncols i j d (some a)) =
        .coo ⟨a.nrows, a.ncols, I, J, D, some a⟩ := by
      show PyObj.coo _ = _
      rw [int_of hp, int_of hi, float_of hD]
    have hnow : (RefObj.now s (.coo a.nrows a.ncols i j d (some a))).obj =
        .coo ⟨a.nrows, a.ncols, I, J, D, some ⟨a.nrows, a.ncols, I, J, D⟩⟩ := by
      show PyObj.coo _ = _
      simp only [PyCoo.of, int_of hp, int_of hi, float_of hD]
      simp
    rw [hget, hnow]
    exact .coo a I J D
  | nd sh i d =>
    obtain ⟨a, hg, rfl, hi, hD⟩ := h
    have hnow : (RefObj.now s (.nd (a.shape.map Int.ofNat) i d)).obj =
        RefObj.get s (.nd (a.shape.map Int.ofNat) i d) := by
      show PyObj.nd _ = PyObj.nd _
      simp only [PyNd.of, map_toNat_ofNat]
    show Views _ (RefObj.now s (.nd (a.shape.map Int.ofNat) i d)).obj _
    rw [hnow]
    exact .nd _

theorem view_obj (s : Sess V) (o : RefObj V) (frozen : Bool) :
    (o.view s frozen).obj = if frozen then (o.snap s).obj else (o.now s).obj := by
  unfold RefObj.view; split <;> rfl

/-- A function of one operand sees the native copy or the arrays. -/
theorem call_views {x p n : PyObj V} (h : Views x p n) (env : PyEnv V) (fn : Fn V) (out : PyRes (PyObj V)) :
    fn.Call env x out ↔ fn.Call env (if fn.frozen then p else n) out := by
  cases h with
  | mat f a P I D =>
    cases hfr : fn.frozen
    · simp only [Bool.false_eq_true, if_false]
      cases fn with
      | un op => cases op <;> first | (cases hfr; done) | exact Iff.rfl
      | scalar op α => cases op <;> first | (cases hfr; done) | exact Iff.rfl
      | left op α => cases hfr
      | T => cases hfr
      | prune eps => cases hfr
      | elimZeros => cases hfr
      | ndop op arg => exact Iff.rfl
      | mode g axis => exact Iff.rfl
    · simp only [if_true]
      cases f <;>
      · cases fn with
        | un op => cases op <;> first | (cases hfr; done) | exact Iff.rfl
        | scalar op α => cases op <;> first | (cases hfr; done) | exact Iff.rfl
        | left op α => cases op <;> exact Iff.rfl
        | T => exact Iff.rfl
        | prune eps => exact Iff.rfl
        | elimZeros => exact Iff.rfl
        | ndop op arg => cases hfr
        | mode g axis => cases hfr
  | coo a I J D =>
    cases hfr : fn.frozen
    · simp only [Bool.false_eq_true, if_false]
      cases fn with
      | un op => cases op <;> first | (cases hfr; done) | exact Iff.rfl
      | scalar op α => cases op <;> first | (cases hfr; done) | exact Iff.rfl
      | left op α => cases hfr
      | T => cases hfr
      | prune eps => cases hfr
      | elimZeros => cases hfr
      | ndop op arg => exact Iff.rfl
      | mode g axis => exact Iff.rfl
    · simp only [if_true]
      cases fn with
      | un op => cases op <;> first | (cases hfr; done) | exact Iff.rfl
      | scalar op α => cases op <;> first | (cases hfr; done) | exact Iff.rfl
      | left op α => cases op <;> exact Iff.rfl
      | T => exact Iff.rfl
      | prune eps => exact Iff.rfl
      | elimZeros => exact Iff.rfl
      | ndop op arg => cases hfr
      | mode g axis => cases hfr
  | nd x => rw [ite_self]

/-- The same for two operands. -/
theorem bin_views {x p n y q m : PyObj V} (h : Views x p n) (h' : Views y q m) (env : PyEnv V) (op : BinOp)
    (out : PyRes (PyObj V)) :
    BinObj env op x y out ↔ BinObj env op (if op.frozen then p else n) (if op.frozen then q else m) out := by
  cases h with
  | mat f a P I D =>
    cases h' with
    | mat g b Q K E =>
      by_cases hfg : f = g
      · subst hfg
        have key : ∀ o, BinMethod env.dbg f op (⟨f.rows a, f.cols a, P, I, D, some a⟩ : PyMat V)
            ⟨f.rows b, f.cols b, Q, K, E, some b⟩ o ↔
            BinMethod env.dbg f op
              (if op.frozen then ⟨f.rows a, f.cols a, a.indptr, a.indices, a.data, some a⟩ else
                ⟨f.rows a, f.cols a, P, I, D, some ⟨a.n, a.m, P, I, D⟩⟩)
              (if op.frozen then ⟨f.rows b, f.cols b, b.indptr, b.indices, b.data, some b⟩ else
                ⟨f.rows b, f.cols b, Q, K, E, some ⟨b.n, b.m, Q, K, E⟩⟩) o := by
          intro o
          cases f <;> cases op <;> exact Iff.rfl
        cases hop : op.frozen <;> simp only [hop, Bool.false_eq_true, if_false, if_true] at key ⊢ <;>
          simp only [BinObj, if_true, key]
      · cases op.frozen <;> simp only [BinObj, hfg, if_false, if_true, Bool.false_eq_true]
    | coo b K L E => cases op.frozen <;> exact Iff.rfl
    | nd y => cases op.frozen <;> exact Iff.rfl
  | coo a I J D => cases h' <;> cases op.frozen <;> exact Iff.rfl
  | nd x =>
    cases h' with
    | mat g b Q K E => cases op.frozen <;> exact Iff.rfl
    | coo b K L E => cases op.frozen <;> exact Iff.rfl
    | nd y => simp only [ite_self]

section
variable [HasFma V] [HasMinMax V] [HasSqrt V]

/-- `vecdot` along another axis than the first uses the native copy only. -/
theorem vecdot_operand {x y : PySp V} {axis : Option Int} (hax : axis ≠ some 0) (hc : x.ncols = y.ncols)
    (ho : x.operand = y.operand) (dbg : Bool) (nthreads : Nat) (z : DenseNd V) (out : PyRes (DenseNd V)) :
    PyVecdot dbg nthreads axis x z out ↔ PyVecdot dbg nthreads axis y z out := by
  obtain ⟨sh, z⟩ := z
  unfold PyVecdot MatVec
  simp only [hax, if_false, hc, ho]

theorem vecdot_sp {x : PyObj V} {p : PySp V} (h : x.sp = some p) (env : PyEnv V) (axis : Option Int) (z : DenseNd V)
    (out : PyRes (LinRes V)) : LinSparseDense env (.vecdot axis) x z out ↔
      ∃ o, PyVecdot env.dbg env.threads axis p z o ∧ out = o.bind fun r => .ret (.dense r) := by
  unfold LinSparseDense
  simp only [h]

/-- The same for questions. -/
theorem ask_views {x p n : PyObj V} (h : Views x p n) (env : PyEnv V) (search : List Int → Int → Nat) (q : Query V)
    (out : PyRes (Answer V)) :
    q.Ask env search x out ↔ q.Ask env search (if q.frozen then p else n) out := by
  cases h with
  | mat f a P I D =>
    cases q with
    | toarray => cases f <;> exact Iff.rfl
    | nnz => cases f <;> exact Iff.rfl
    | getItem key => cases f <;> exact Iff.rfl
    | reduce op axis kd => cases op <;> cases f <;> exact Iff.rfl
    | logic op axis kd => cases f <;> exact Iff.rfl
    | scan op axis => cases f <;> exact Iff.rfl
    | diff n axis => cases f <;> exact Iff.rfl
    | count axis kd => cases f <;> exact Iff.rfl
    | linalg fn y =>
      cases fn with
      | matmul => cases f <;> exact Iff.rfl
      | tensordot axes =>
        obtain ⟨sh, y⟩ := y
        match sh with
        | [] => cases f <;> exact Iff.rfl
        | [d] => cases f <;> exact Iff.rfl
        | d :: d' :: rest =>
          have hfr : (Query.linalg (.tensordot axes) ⟨d :: d' :: rest, y⟩ : Query V).frozen = false := by
            show decide ((d :: d' :: rest).length = 1) = false
            simp
          simp only [hfr, Bool.false_eq_true, if_false]
          cases f <;> exact Iff.rfl
      | vecdot axis =>
        by_cases hax : axis = some 0
        · subst hax; cases f <;> exact Iff.rfl
        · have hfr : (Query.linalg (.vecdot axis) y : Query V).frozen = true := by
            show decide (axis ≠ some 0) = true
            simpa using hax
          simp only [hfr, if_true]
          cases f <;> exact exists_congr fun o => and_congr (by
            rw [vecdot_sp rfl, vecdot_sp rfl]
            exact exists_congr fun o => and_congr (vecdot_operand hax (by rfl) (by rfl) _ _ _ _) Iff.rfl) Iff.rfl
  | coo a I J D =>
    cases q with
    | toarray => exact Iff.rfl
    | nnz => exact Iff.rfl
    | getItem key => exact Iff.rfl
    | reduce op axis kd => cases op <;> exact Iff.rfl
    | logic op axis kd => exact Iff.rfl
    | scan op axis => exact Iff.rfl
    | diff n axis => exact Iff.rfl
    | count axis kd => exact Iff.rfl
    | linalg fn y =>
      cases fn with
      | matmul => exact Iff.rfl
      | tensordot axes =>
        obtain ⟨sh, y⟩ := y
        match sh with
        | [] => exact Iff.rfl
        | [d] => exact Iff.rfl
        | d :: d' :: rest =>
          have hfr : (Query.linalg (.tensordot axes) ⟨d :: d' :: rest, y⟩ : Query V).frozen = false := by
            show decide ((d :: d' :: rest).length = 1) = false
            simp
          simp only [hfr, Bool.false_eq_true, if_false]
          exact Iff.rfl
      | vecdot axis =>
        by_cases hax : axis = some 0
        · subst hax; exact Iff.rfl
        · have hfr : (Query.linalg (.vecdot axis) y : Query V).frozen = true := by
            show decide (axis ≠ some 0) = true
            simpa using hax
          simp only [hfr, if_true]
          exact exists_congr fun o => and_congr (by
            rw [vecdot_sp rfl, vecdot_sp rfl]
            exact exists_congr fun o => and_congr (vecdot_operand hax (by rfl) (by rfl) _ _ _ _) Iff.rfl) Iff.rfl
  | nd x => rw [ite_self]

end

/-! ### what stays -/

/-- An object is all right as long as its arrays of indices stay and its array of values keeps its length. -/
theorem RefObj.Ok.mono {s s' : Sess V} (hi : ∀ (a : Nat) (l : List Int), s.ints[a]? = some l → s'.ints[a]? = some l)
    (hf : ∀ (a : Nat) (l : List V), s.floats[a]? = some l → ∃ l' : List V, s'.floats[a]? = some l' ∧ l'.length = l.length) {o : RefObj V} (h : o.Ok s) :
    o.Ok s' := by
  cases o with
  | mat f r c p i d hd =>
    obtain ⟨a, e1, hg, e2, e3, P, I, D, hp, hi', hD, hw⟩ := h
    obtain ⟨D', hD', hl'⟩ := hf _ _ hD
    exact ⟨a, e1, hg, e2, e3, P, I, D', hi _ _ hp, hi _ _ hi', hD', hw.withData hl'⟩
  | coo r c i j d hd =>
    obtain ⟨a, e1, hg, e2, e3, I, J, D, hp, hi', hD, hw⟩ := h
    obtain ⟨D', hD', hl'⟩ := hf _ _ hD
    exact ⟨a, e1, hg, e2, e3, I, J, D', hi _ _ hp, hi _ _ hi', hD', hw.withData hl'⟩
  | nd sh i d =>
    obtain ⟨a, hg, e1, hi', hD⟩ := h
    obtain ⟨D', hD', hl'⟩ := hf _ _ hD
    exact ⟨{ a with data := D' }, hg.withData hl', e1, hi _ _ hi', hD'⟩

/-- All objects are all right. -/
def Sess.Inv (s : Sess V) : Prop := ∀ o ∈ s.objs, o.Ok s

/-- Arrays and objects are only added. -/
def Sess.Grows (s s' : Sess V) : Prop :=
  (∃ i, s'.ints = s.ints ++ i) ∧ (∃ f, s'.floats = s.floats ++ f) ∧ ∃ o, s'.objs = s.objs ++ o

theorem Sess.Grows.ints {s s' : Sess V} (h : s.Grows s') {a : Nat} {l : List Int} (e : s.ints[a]? = some l) :
    s'.ints[a]? = some l := by
  obtain ⟨⟨i, h⟩, -⟩ := h
  rw [h, List.getElem?_append_left (List.getElem?_eq_some_iff.1 e).1, e]

theorem Sess.Grows.floats {s s' : Sess V} (h : s.Grows s') {a : Nat} {l : List V} (e : s.floats[a]? = some l) :
    s'.floats[a]? = some l := by
  obtain ⟨-, ⟨i, h⟩, -⟩ := h
  rw [h, List.getElem?_append_left (List.getElem?_eq_some_iff.1 e).1, e]

theorem Sess.Grows.ok {s s' : Sess V} (h : s.Grows s') {o : RefObj V} (ho : o.Ok s) : o.Ok s' :=
  ho.mono (fun _ _ e => h.ints e) (fun _ _ e => ⟨_, h.floats e, rfl⟩)

/-- The attributes of an object only depend on the arrays it refers to. -/
theorem RefObj.Ok.get_eq {s s' : Sess V} {o : RefObj V} (ho : o.Ok s) (hi : ∀ (a : Nat) (l : List Int), s.ints[a]? = some l → s'.ints[a]? = some l)
    (hf : ∀ l, s.floats[o.dataRef]? = some l → s'.floats[o.dataRef]? = some l) : o.get s' = o.get s := by
  cases o with
  | mat f r c p i d hd =>
    obtain ⟨a, e1, hg, e2, e3, _, _, D, hp, hi', hD, -⟩ := ho
    show PyObj.mat _ _ = PyObj.mat _ _
    rw [int_of hp, int_of hi', float_of hD, int_of (hi _ _ hp), int_of (hi _ _ hi'), float_of (a := d) (hf _ hD)]
  | coo r c i j d hd =>
    obtain ⟨a, e1, hg, e2, e3, _, _, D, hp, hi', hD, -⟩ := ho
    show PyObj.coo _ = PyObj.coo _
    rw [int_of hp, int_of hi', float_of hD, int_of (hi _ _ hp), int_of (hi _ _ hi'), float_of (a := d) (hf _ hD)]
  | nd sh i d =>
    obtain ⟨a, hg, e1, hi', hD⟩ := ho
    show PyObj.nd _ = PyObj.nd _
    rw [int_of hi', float_of hD, int_of (hi _ _ hi'), float_of (a := d) (hf _ hD)]

theorem RefObj.Ok.now_eq {s s' : Sess V} {o : RefObj V} (ho : o.Ok s) (hi : ∀ (a : Nat) (l : List Int), s.ints[a]? = some l → s'.ints[a]? = some l)
    (hf : ∀ l, s.floats[o.dataRef]? = some l → s'.floats[o.dataRef]? = some l) : o.now s' = o.now s := by
  cases o with
  | mat f r c p i d hd =>
    obtain ⟨a, e1, hg, e2, e3, _, _, D, hp, hi', hD, -⟩ := ho
    cases f <;>
    · show SpVal.mat _ _ = SpVal.mat _ _
      rw [int_of hp, int_of hi', float_of hD, int_of (hi _ _ hp), int_of (hi _ _ hi'), float_of (a := d) (hf _ hD)]
  | coo r c i j d hd =>
    obtain ⟨a, e1, hg, e2, e3, _, _, D, hp, hi', hD, -⟩ := ho
    show SpVal.coo _ = SpVal.coo _
    rw [int_of hp, int_of hi', float_of hD, int_of (hi _ _ hp), int_of (hi _ _ hi'), float_of (a := d) (hf _ hD)]
  | nd sh i d =>
    obtain ⟨a, hg, e1, hi', hD⟩ := ho
    show SpVal.nd _ = SpVal.nd _
    rw [int_of hi', float_of hD, int_of (hi _ _ hi'), float_of (a := d) (hf _ hD)]

theorem RefObj.snap_eq_of_copied {o : RefObj V} (h : o.copied) (s s' : Sess V) : o.snap s' = o.snap s := by
  cases o with
  | mat f r c p i d hd => cases hd with | none => cases h | some a => rfl
  | coo r c i j d hd => cases hd with | none => cases h | some a => rfl
  | nd sh i d => cases h

theorem RefObj.Ok.copied_eq {s : Sess V} {o : RefObj V} (ho : o.Ok s) : o.copied = o.native := by
  cases o with
  | mat f r c p i d hd => obtain ⟨a, rfl, -⟩ := ho; rfl
  | coo r c i j d hd => obtain ⟨a, rfl, -⟩ := ho; rfl
  | nd sh i d => rfl

theorem RefObj.snap_eq_now {o : RefObj V} (h : o.native = false) (s : Sess V) : o.snap s = o.now s := by
  cases o with
  | mat f r c p i d hd => cases h
  | coo r c i j d hd => cases h
  | nd sh i d => rfl

theorem RefObj.Ok.snap_eq {s s' : Sess V} {o : RefObj V} (ho : o.Ok s) (hi : ∀ (a : Nat) (l : List Int), s.ints[a]? = some l → s'.ints[a]? = some l)
    (hf : ∀ l, s.floats[o.dataRef]? = some l → s'.floats[o.dataRef]? = some l) : o.snap s' = o.snap s := by
  cases hn : o.native with
  | true => exact RefObj.snap_eq_of_copied (by rw [ho.copied_eq, hn]) _ _
  | false => rw [RefObj.snap_eq_now hn, RefObj.snap_eq_now hn, ho.now_eq hi hf]

/-! ### new objects -/

theorem getElem?_last {α : Type} (l : List α) (x : α) (r : List α) : (l ++ x :: r)[l.length]? = some x := by simp
theorem getElem?_last2 {α : Type} (l : List α) (x y : α) (r : List α) : (l ++ x :: y :: r)[l.length + 1]? = some y := by
  rw [List.getElem?_append_right (by omega)]; simp

theorem alloc_grows (s : Sess V) (v : SpVal V) : s.Grows (s.alloc v.obj) := by
  cases v <;> exact ⟨⟨_, rfl⟩, ⟨_, rfl⟩, ⟨_, rfl⟩⟩

/-- The new object. -/
theorem alloc_new (s : Sess V) {v : SpVal V} (h : v.Good) : ∃ o : RefObj V, (s.alloc v.obj).objs = s.objs ++ [o] ∧
    o.Ok (s.alloc v.obj) ∧ o.get (s.alloc v.obj) = v.obj ∧ o.now (s.alloc v.obj) = v ∧ o.snap (s.alloc v.obj) = v ∧
    o.dataRef = s.floats.length := by
  cases v with
  | mat f a =>
    have e1 : (s.alloc (SpVal.mat f a).obj).ints[s.ints.length]? = some a.indptr := getElem?_last _ _ _
    have e2 : (s.alloc (SpVal.mat f a).obj).ints[s.ints.length + 1]? = some a.indices := getElem?_last2 _ _ _ _
    have e3 : (s.alloc (SpVal.mat f a).obj).floats[s.floats.length]? = some a.data := getElem?_last _ _ _
    refine ⟨_, rfl, ⟨a, rfl, h, rfl, rfl, _, _, _, e1, e2, e3, h⟩, ?_, ?_, rfl, rfl⟩
    · show PyObj.mat _ _ = _
      rw [int_of e1, int_of e2, float_of e3]; rfl
    · cases f <;>
      · show SpVal.mat _ _ = _
        rw [int_of e1, int_of e2, float_of e3]
        simp [PyMat.of, Fmt.rows, Fmt.cols]
  | coo a =>
    have e1 : (s.alloc (SpVal.coo a).obj).ints[s.ints.length]? = some a.row := getElem?_last _ _ _
    have e2 : (s.alloc (SpVal.coo a).obj).ints[s.ints.length + 1]? = some a.col := getElem?_last2 _ _ _ _
    have e3 : (s.alloc (SpVal.coo a).obj).floats[s.floats.length]? = some a.data := getElem?_last _ _ _
    refine ⟨_, rfl, ⟨a, rfl, h, rfl, rfl, _, _, _, e1, e2, e3, h⟩, ?_, ?_, rfl, rfl⟩
    · show PyObj.coo _ = _
      rw [int_of e1, int_of e2, float_of e3]; rfl
    · show SpVal.coo _ = _
      rw [int_of e1, int_of e2, float_of e3]
      simp [PyCoo.of]
  | nd a =>
    have e1 : (s.alloc (SpVal.nd a).obj).ints[s.ints.length]? = some a.indices := getElem?_last _ _ _
    have e3 : (s.alloc (SpVal.nd a).obj).floats[s.floats.length]? = some a.data := getElem?_last _ _ _
    have e4 : RefObj.now (s.alloc (SpVal.nd a).obj) (.nd (a.shape.map Int.ofNat) s.ints.length s.floats.length) = .nd a := by
      show SpVal.nd _ = _
      rw [int_of e1, float_of e3, map_toNat_ofNat]
    refine ⟨_, rfl, ⟨a, h, rfl, e1, e3⟩, ?_, e4, e4, rfl⟩
    show PyObj.nd _ = _
    rw [int_of e1, float_of e3]; rfl

/-- What a statement that makes an object does. -/
def Made (env : PyEnv V) (s : Sess V) (st : Stmt V) (p : Prog V) : Prop :=
  (∃ e, p.value env = .error e ∧ ∀ out, s.Step env st out ↔ out = .raises e) ∨
  (∃ v s' o, p.value env = .ok v ∧ v.Good ∧ (∀ out, s.Step env st out ↔ out = .ret s') ∧ s.Grows s' ∧
    s'.objs = s.objs ++ [o] ∧ o.Ok s' ∧ o.get s' = v.obj ∧ o.now s' = v ∧ o.snap s' = v ∧
    ((∃ fn x, st = .call fn x) ∨ (∃ op x y, st = .bin op x y) → o.dataRef = s.floats.length))

/-- A statement whose outcome is the allocated outcome of a program. -/
theorem made_of_alloc {env : PyEnv V} (he : env.Ok) {s : Sess V} {st : Stmt V} {p : Prog V} (hl : p.LitsOk) (hs : p.Small)
    (h : ∀ out, s.Step env st out ↔ ∃ r, p.Eval env r ∧ out = r.bind fun y => .ret (s.alloc y)) : Made env s st p := by
  have hst := Prog.step he hl hs
  cases hv : p.value env with
  | error e =>
    refine .inl ⟨e, hv, fun out => ?_⟩
    rw [h]
    simp only [hst.2, hv, exists_eq_left]
    exact Iff.rfl
  | ok v =>
    obtain ⟨hg, -, -⟩ := hst.good hs hv
    obtain ⟨o, e1, e2, e3, e4, e5, e6⟩ := alloc_new s hg
    refine .inr ⟨v, s.alloc v.obj, o, hv, hg, fun out => ?_, alloc_grows s v, e1, e2, e3, e4, e5, fun _ => e6⟩
    rw [h]
    simp only [hst.2, hv, exists_eq_left]
    exact Iff.rfl

theorem push_grows (s : Sess V) (o : RefObj V) : s.Grows (s.push o) :=
  ⟨⟨[], (List.append_nil _).symm⟩, ⟨[], (List.append_nil _).symm⟩, ⟨_, rfl⟩⟩

theorem step_made {env : PyEnv V} (he : env.Ok) {s : Sess V} (hI : s.Inv) {st : Stmt V} (ht : s.Tame st)
    (hd : s.Defined st) {p : Prog V} (hp : s.prog st = some p) : Made env s st p := by
  cases st with
  | ints l => cases hp
  | floats l => cases hp
  | mat f r c p i d =>
    cases hp
    obtain ⟨hl, hf⟩ := ht
    obtain ⟨h1, h2, h3⟩ := hd
    obtain ⟨P, hP⟩ : ∃ P, s.ints[p]? = some P := ⟨_, List.getElem?_eq_getElem h1⟩
    obtain ⟨I, hI'⟩ : ∃ P, s.ints[i]? = some P := ⟨_, List.getElem?_eq_getElem h2⟩
    obtain ⟨D, hD⟩ : ∃ P, s.floats[d]? = some P := ⟨_, List.getElem?_eq_getElem h3⟩
    rw [int_of hP, int_of hI', float_of hD] at hl hf ⊢
    have hst := Prog.step he hl (show (Prog.mat f r c P I D).Small from hf)
    have hS : ∀ out, s.Step env (.mat f r c p i d) out ↔
        out = (PyRes.ofExcept (PyMat.new f r c P I D true)).bind fun x => .ret (s.push (.mat f r c p i d x.handle)) := by
      intro out
      show (∃ P I D, _) ↔ _
      simp only [hP, hI', hD, Option.some.injEq]
      constructor
      · rintro ⟨_, _, _, rfl, rfl, rfl, h⟩; exact h
      · intro h; exact ⟨_, _, _, rfl, rfl, rfl, h⟩
    have hE := hst.2
    cases hv : (Prog.mat f r c P I D).value env with
    | error e =>
      refine .inl ⟨e, hv, fun out => ?_⟩
      rw [hS]
      have := (hE (.raises e)).2 (by rw [hv]; rfl)
      have : PyRes.raises e = (PyRes.ofExcept (PyMat.new f r c P I D true)).bind fun x => .ret (PyObj.mat f x) := this
      cases hn : PyMat.new f r c P I D true with
      | error e' => rw [hn] at this; cases this; exact Iff.rfl
      | ok x => rw [hn] at this; cases this
    | ok v =>
      obtain ⟨hg, -, -⟩ := hst.good hf hv
      have := (hE (.ret v.obj)).2 (by rw [hv]; rfl)
      have : PyRes.ret v.obj = (PyRes.ofExcept (PyMat.new f r c P I D true)).bind fun x => .ret (.mat f x) := this
      obtain ⟨a, rfl, hna⟩ : ∃ a, v = .mat f a ∧ nativeNew f r c P I D true = .ok a := by
        have hv : (nativeNew f r c P I D true).map (SpVal.mat f) = .ok v := hv
        cases hn : nativeNew f r c P I D true with
        | error e => rw [hn] at hv; cases hv
        | ok a => rw [hn] at hv; cases hv; exact ⟨a, rfl, rfl⟩
      obtain ⟨-, -, -, rfl, rfl, rfl, rfl, rfl⟩ := nativeNew_true_ok hl.1 hna
      cases hn : PyMat.new f (f.rows a) (f.cols a) a.indptr a.indices a.data true with
      | error e' => rw [hn] at this; cases this
      | ok x =>
        rw [hn] at this
        have hx : x = PyMat.of f a := by
          injection this with this
          have this : PyObj.mat f (PyMat.of f a) = PyObj.mat f x := this
          injection this with _ this
          exact this.symm
        subst hx
        have hok : RefObj.Ok (s.push (.mat f (f.rows a) (f.cols a) p i d (some a)))
            (.mat f (f.rows a) (f.cols a) p i d (some a)) := ⟨a, rfl, hg, rfl, rfl, _, _, _, hP, hI', hD, hg⟩
        have hv := hok.views
        refine .inr ⟨.mat f a, s.push (.mat f (f.rows a) (f.cols a) p i d (some a)),
          .mat f (f.rows a) (f.cols a) p i d (some a), ‹_›, hg, fun out => ?_, push_grows _ _, rfl, hok, ?_, ?_, rfl, ?_⟩
        · rw [hS, hn]; exact Iff.rfl
        · show PyObj.mat f ⟨_, _, s.int p, s.int i, s.float d, _⟩ = _
          rw [int_of hP, int_of hI', float_of hD]; rfl
        · cases f <;>
          · show SpVal.mat _ ⟨_, _, s.int p, s.int i, s.float d⟩ = _
            rw [int_of hP, int_of hI', float_of hD]
            simp [Fmt.rows, Fmt.cols]
        · rintro (⟨_, _, h⟩ | ⟨_, _, _, h⟩) <;> cases h
  | coo r c i j d =>
    cases hp
    obtain ⟨hl, hf⟩ := ht
    obtain ⟨h1, h2, h3⟩ := hd
    obtain ⟨I, hI'⟩ : ∃ P, s.ints[i]? = some P := ⟨_, List.getElem?_eq_getElem h1⟩
    obtain ⟨J, hJ⟩ : ∃ P, s.ints[j]? = some P := ⟨_, List.getElem?_eq_getElem h2⟩
    obtain ⟨D, hD⟩ : ∃ P, s.floats[d]? = some P := ⟨_, List.getElem?_eq_getElem h3⟩
    rw [int_of hI', int_of hJ, float_of hD] at hl hf ⊢
    have hst := Prog.step he hl (show (Prog.coo r c I J D).Small from hf)
    have hS : ∀ out, s.Step env (.coo r c i j d) out ↔
        out = .ret (s.push (.coo r c i j d (PyCoo.new r c I J D true).handle)) := by
      intro out
      show (∃ P I D, _) ↔ _
      simp only [hI', hJ, hD, Option.some.injEq]
      constructor
      · rintro ⟨_, _, _, rfl, rfl, rfl, h⟩; exact h
      · intro h; exact ⟨_, _, _, rfl, rfl, rfl, h⟩
    have hv : (Prog.coo r c I J D).value env = .ok (.coo ⟨r.toNat, c.toNat, I, J, D⟩) := rfl
    obtain ⟨hg, -, -⟩ := hst.good hf hv
    have hx := (hst.2 (.ret (SpVal.coo ⟨r.toNat, c.toNat, I, J, D⟩).obj)).2 (by rw [hv]; rfl)
    have hx : PyRes.ret (PyObj.coo (PyCoo.of ⟨r.toNat, c.toNat, I, J, D⟩)) = .ret (.coo (PyCoo.new r c I J D true)) := hx
    have hx : PyCoo.of ⟨r.toNat, c.toNat, I, J, D⟩ = PyCoo.new r c I J D true := by
      injection hx with hx; injection hx
    have hh : (PyCoo.new r c I J D true).handle = some ⟨r.toNat, c.toNat, I, J, D⟩ := by rw [← hx]; rfl
    have hr : (r.toNat : Int) = r := Int.toNat_of_nonneg hl.1
    have hc : (c.toNat : Int) = c := Int.toNat_of_nonneg hl.2.1
    rw [hh] at hS
    refine .inr ⟨_, s.push (.coo r c i j d (some ⟨r.toNat, c.toNat, I, J, D⟩)),
      .coo r c i j d (some ⟨r.toNat, c.toNat, I, J, D⟩), hv, hg, hS, push_grows _ _, rfl,
      ⟨_, rfl, hg, hr.symm, hc.symm, _, _, _, hI', hJ, hD, hg⟩, ?_, ?_, rfl, ?_⟩
    · show PyObj.coo ⟨_, _, s.int i, s.int j, s.float d, _⟩ = PyObj.coo ⟨(r.toNat : Int), (c.toNat : Int), _, _, _, _⟩
      rw [int_of hI', int_of hJ, float_of hD, hr, hc]
    · show SpVal.coo ⟨_, _, s.int i, s.int j, s.float d⟩ = _
      rw [int_of hI', int_of hJ, float_of hD]
    · rintro (⟨_, _, h⟩ | ⟨_, _, _, h⟩) <;> cases h
  | nd sh i d =>
    cases hp
    obtain ⟨hl, hf⟩ := ht
    obtain ⟨h1, h3⟩ := hd
    obtain ⟨I, hI'⟩ : ∃ P, s.ints[i]? = some P := ⟨_, List.getElem?_eq_getElem h1⟩
    obtain ⟨D, hD⟩ : ∃ P, s.floats[d]? = some P := ⟨_, List.getElem?_eq_getElem h3⟩
    rw [int_of hI', float_of hD] at hl hf ⊢
    have hst := Prog.step he hl (show (Prog.nd sh I D).Small from hf)
    have hS : ∀ out, s.Step env (.nd sh i d) out ↔
        out = (PyRes.ofExcept (PyNd.new sh I D)).bind fun _ => .ret (s.push (.nd sh i d)) := by
      intro out
      show (∃ I D, _) ↔ _
      simp only [hI', hD, Option.some.injEq]
      constructor
      · rintro ⟨_, _, rfl, rfl, h⟩; exact h
      · intro h; exact ⟨_, _, rfl, rfl, h⟩
    have hv : (Prog.nd sh I D).value env = .ok (.nd ⟨sh.map Int.toNat, I, D⟩) := rfl
    obtain ⟨hg, -, -⟩ := hst.good hf hv
    have hx := (hst.2 (.ret (SpVal.nd ⟨sh.map Int.toNat, I, D⟩).obj)).2 (by rw [hv]; rfl)
    have hx : PyRes.ret (PyObj.nd (PyNd.of ⟨sh.map Int.toNat, I, D⟩)) =
        (PyRes.ofExcept (PyNd.new sh I D)).bind fun x => .ret (.nd x) := hx
    have hsh : (sh.map Int.toNat).map Int.ofNat = sh := by
      rw [List.map_map]
      conv_rhs => rw [← List.map_id sh]
      exact List.map_congr_left fun x hx => Int.toNat_of_nonneg (hl.1 x hx)
    have hnow : RefObj.now (s.push (.nd sh i d)) (.nd sh i d) = .nd ⟨sh.map Int.toNat, I, D⟩ := by
      show SpVal.nd ⟨_, s.int i, s.float d⟩ = _
      rw [int_of hI', float_of hD]
    cases hn : PyNd.new sh I D with
    | error e => rw [hn] at hx; cases hx
    | ok x =>
      refine .inr ⟨_, s.push (.nd sh i d), .nd sh i d, hv, hg, fun out => ?_, push_grows _ _, rfl,
        ⟨⟨sh.map Int.toNat, I, D⟩, hg, hsh.symm, hI', hD⟩, ?_, hnow, hnow, ?_⟩
      · rw [hS, hn]; exact Iff.rfl
      · show PyObj.nd ⟨_, s.int i, s.float d⟩ = PyObj.nd ⟨(sh.map Int.toNat).map Int.ofNat, _, _⟩
        rw [int_of hI', float_of hD, hsh]
      · rintro (⟨_, _, h⟩ | ⟨_, _, _, h⟩) <;> cases h
  | call fn x =>
    obtain ⟨o, ho⟩ : ∃ P, s.objs[x]? = some P := ⟨_, List.getElem?_eq_getElem hd⟩
    have hp : s.objs[x]?.map _ = some p := hp
    rw [ho] at hp
    cases hp
    have hok : o.Ok s := hI o (List.mem_of_getElem? ho)
    have hg := hok.good fn.frozen
    refine made_of_alloc he (on_litsOk hg fn) (on_small hg (ht o ho)) fun out => ?_
    show (∃ o, _) ↔ _
    simp only [ho, Option.some.injEq, exists_eq_left', on_eval hg he]
    refine exists_congr fun r => and_congr ?_ Iff.rfl
    rw [call_views hok.views, view_obj]
  | bin op x y =>
    obtain ⟨h1, h2⟩ := hd
    obtain ⟨o, ho⟩ : ∃ P, s.objs[x]? = some P := ⟨_, List.getElem?_eq_getElem h1⟩
    obtain ⟨o', ho'⟩ : ∃ P, s.objs[y]? = some P := ⟨_, List.getElem?_eq_getElem h2⟩
    have hp : (s.objs[x]?.bind fun o => s.objs[y]?.map _) = some p := hp
    rw [ho, ho'] at hp
    cases hp
    have hok : o.Ok s := hI o (List.mem_of_getElem? ho)
    have hok' : o'.Ok s := hI o' (List.mem_of_getElem? ho')
    have hg := hok.good op.frozen
    have hg' := hok'.good op.frozen
    refine made_of_alloc he ⟨lit_litsOk hg, lit_litsOk hg'⟩ ⟨lit_small hg, lit_small hg', ht o o' ho ho'⟩ fun out => ?_
    show (∃ o o', _) ↔ _
    simp only [ho, ho', Option.some.injEq, bin_eval hg hg' he]
    constructor
    · rintro ⟨_, _, rfl, rfl, r, h, e⟩
      refine ⟨r, ?_, e⟩
      rw [bin_views hok.views hok'.views, ← view_obj, ← view_obj] at h
      exact h
    · rintro ⟨r, h, e⟩
      refine ⟨_, _, rfl, rfl, r, ?_, e⟩
      rw [bin_views hok.views hok'.views, ← view_obj, ← view_obj]
      exact h
  | setInts a l => cases hp
  | setFloats a l => cases hp

/-! ### reachable states -/

/-- A statement with an outcome only mentions defined names. -/
theorem defined_of_step {env : PyEnv V} {s : Sess V} {st : Stmt V} {out : PyRes (Sess V)} (h : s.Step env st out) : s.Defined st := by
  have lt : ∀ {α : Type} {l : List α} {i : Nat} {x : α}, l[i]? = some x → i < l.length :=
    fun e => (List.getElem?_eq_some_iff.1 e).1
  cases st with
  | ints l => trivial
  | floats l => trivial
  | mat f r c p i d => obtain ⟨_, _, _, h1, h2, h3, -⟩ := h; exact ⟨lt h1, lt h2, lt h3⟩
  | coo r c i j d => obtain ⟨_, _, _, h1, h2, h3, -⟩ := h; exact ⟨lt h1, lt h2, lt h3⟩
  | nd sh i d => obtain ⟨_, _, h1, h2, -⟩ := h; exact ⟨lt h1, lt h2⟩
  | call fn x => obtain ⟨_, h1, -⟩ := h; exact lt h1
  | bin op x y => obtain ⟨_, _, h1, h2, -⟩ := h; exact ⟨lt h1, lt h2⟩
  | setInts a l => obtain ⟨_, h1, -⟩ := h; exact lt h1
  | setFloats a l => obtain ⟨_, h1, -⟩ := h; exact lt h1

/-- Which statements make an object. -/
theorem prog_isSome {s : Sess V} {st : Stmt V} (hd : s.Defined st) :
    (∃ p, s.prog st = some p) ∨ (∃ l, st = .ints l) ∨ (∃ l, st = .floats l) ∨ st.writes = true := by
  cases st with
  | ints l => exact .inr (.inl ⟨l, rfl⟩)
  | floats l => exact .inr (.inr (.inl ⟨l, rfl⟩))
  | mat f r c p i d => exact .inl ⟨_, rfl⟩
  | coo r c i j d => exact .inl ⟨_, rfl⟩
  | nd sh i d => exact .inl ⟨_, rfl⟩
  | call fn x =>
    have e : s.objs[x]? = some s.objs[x] := List.getElem?_eq_getElem hd
    exact .inl ⟨_, by show s.objs[x]?.map _ = _; rw [e]; rfl⟩
  | bin op x y =>
    obtain ⟨h1, h2⟩ := hd
    have e : s.objs[x]? = some s.objs[x] := List.getElem?_eq_getElem h1
    have e' : s.objs[y]? = some s.objs[y] := List.getElem?_eq_getElem h2
    exact .inl ⟨_, by show (s.objs[x]?.bind fun o => s.objs[y]?.map _) = _; rw [e, e']; rfl⟩
  | setInts a l => exact .inr (.inr (.inr rfl))
  | setFloats a l => exact .inr (.inr (.inr rfl))

theorem floats_set {s : Sess V} {a : Nat} {l old : List V} (ho : s.floats[a]? = some old) (b : Nat) :
    (s.floats.set a l)[b]? = if b = a then some l else s.floats[b]? := by
  rw [List.getElem?_set]
  by_cases h : b = a
  · subst h
    rw [if_pos rfl, if_pos rfl, if_pos (List.getElem?_eq_some_iff.1 ho).1]
  · rw [if_neg (fun e => h e.symm), if_neg h]

/-- The program of a statement meets the conditions of the theorems on programs. -/
theorem tame_prog {s : Sess V} (hI : s.Inv) {st : Stmt V} (ht : s.Tame st) (hd : s.Defined st) {p : Prog V}
    (hp : s.prog st = some p) : p.LitsOk ∧ p.Small := by
  cases st with
  | ints l => cases hp
  | floats l => cases hp
  | mat f r c p i d => cases hp; exact ht
  | coo r c i j d => cases hp; exact ht
  | nd sh i d => cases hp; exact ht
  | call fn x =>
    obtain ⟨o, ho⟩ : ∃ P, s.objs[x]? = some P := ⟨_, List.getElem?_eq_getElem hd⟩
    have hp : s.objs[x]?.map _ = some p := hp
    rw [ho] at hp
    cases hp
    have hg := (hI o (List.mem_of_getElem? ho)).good fn.frozen
    exact ⟨on_litsOk hg fn, on_small hg (ht o ho)⟩
  | bin op x y =>
    obtain ⟨h1, h2⟩ := hd
    obtain ⟨o, ho⟩ : ∃ P, s.objs[x]? = some P := ⟨_, List.getElem?_eq_getElem h1⟩
    obtain ⟨o', ho'⟩ : ∃ P, s.objs[y]? = some P := ⟨_, List.getElem?_eq_getElem h2⟩
    have hp : (s.objs[x]?.bind fun o => s.objs[y]?.map _) = some p := hp
    rw [ho, ho'] at hp
    cases hp
    have hg := (hI o (List.mem_of_getElem? ho)).good op.frozen
    have hg' := (hI o' (List.mem_of_getElem? ho')).good op.frozen
    exact ⟨⟨lit_litsOk hg, lit_litsOk hg'⟩, lit_small hg, lit_small hg', ht o o' ho ho'⟩
  | setInts a l => cases hp
  | setFloats a l => cases hp

/-- A statement that does not write only adds. -/
theorem step_grows {env : PyEnv V} (he : env.Ok) {s : Sess V} (hI : s.Inv) {st : Stmt V} (ht : s.Tame st)
    (hw : st.writes = false) {s' : Sess V} (h : s.Step env st (.ret s')) : s.Grows s' ∧ s'.Inv := by
  rcases prog_isSome (defined_of_step h) with ⟨p, hp⟩ | ⟨l, rfl⟩ | ⟨l, rfl⟩ | hw'
  · rcases step_made he hI ht (defined_of_step h) hp with ⟨e, -, h'⟩ | ⟨v, s'', o, -, -, h', hg, ho, hok, -⟩
    · cases (h' _).1 h
    · cases (h' _).1 h
      refine ⟨hg, fun o' ho' => ?_⟩
      rw [ho, List.mem_append] at ho'
      rcases ho' with h1 | h1
      · exact hg.ok (hI _ h1)
      · rw [List.mem_singleton] at h1; subst h1; exact hok
  · have h : PyRes.ret s' = .ret { s with ints := s.ints ++ [l] } := h
    cases h
    have hg : s.Grows { s with ints := s.ints ++ [l] } :=
      ⟨⟨_, rfl⟩, ⟨[], (List.append_nil _).symm⟩, ⟨[], (List.append_nil _).symm⟩⟩
    exact ⟨hg, fun o ho => hg.ok (hI o ho)⟩
  · have h : PyRes.ret s' = .ret { s with floats := s.floats ++ [l] } := h
    cases h
    have hg : s.Grows { s with floats := s.floats ++ [l] } :=
      ⟨⟨[], (List.append_nil _).symm⟩, ⟨_, rfl⟩, ⟨[], (List.append_nil _).symm⟩⟩
    exact ⟨hg, fun o ho => hg.ok (hI o ho)⟩
  · rw [hw] at hw'; cases hw'

theorem step_setFloats {env : PyEnv V} {s s' : Sess V} {a : Nat} {l : List V} (h : s.Step env (.setFloats a l) (.ret s')) :
    ∃ old, s.floats[a]? = some old ∧ l.length = old.length ∧ s' = { s with floats := s.floats.set a l } := by
  obtain ⟨old, ho, h⟩ := h
  by_cases hl : l.length = old.length
  · rw [if_pos hl] at h; cases h; exact ⟨old, ho, hl, rfl⟩
  · rw [if_neg hl] at h; cases h

theorem step_inv {env : PyEnv V} (he : env.Ok) {s : Sess V} (hI : s.Inv) {st : Stmt V} (ht : s.Tame st)
    {s' : Sess V} (h : s.Step env st (.ret s')) : s'.Inv := by
  cases hw : st.writes with
  | false => exact (step_grows he hI ht hw h).2
  | true =>
    cases st with
    | ints _ => cases hw
    | floats _ => cases hw
    | mat _ _ _ _ _ _ => cases hw
    | coo _ _ _ _ _ => cases hw
    | nd _ _ _ => cases hw
    | call _ _ => cases hw
    | bin _ _ _ => cases hw
    | setInts a l => exact ht.elim
    | setFloats a l =>
      obtain ⟨old, ho, hl, rfl⟩ := step_setFloats h
      intro o hm
      refine RefObj.Ok.mono (s := s) (s' := { s with floats := s.floats.set a l }) (fun _ _ e => e) (fun b m e => ?_) (hI o hm)
      show ∃ l', (s.floats.set a l)[b]? = some l' ∧ _
      rw [floats_set ho]
      split
      · rename_i hb
        subst hb
        rw [ho] at e; cases e
        exact ⟨l, rfl, hl⟩
      · exact ⟨m, e, rfl⟩

theorem reach_inv {envs : PyEnv V → Prop} (he : ∀ env, envs env → env.Ok) {ok : Sess V → Stmt V → Prop}
    (hok : ∀ s st, ok s st → s.Tame st) {s : Sess V} (h : Sess.Reach envs ok s) : s.Inv := by
  induction h with
  | start => intro o ho; cases ho
  | step _ hm ht hs ih => exact step_inv (he _ hm) ih (hok _ _ ht) hs

/-! ### functions that do not look at the arrays -/

/-- The same native copy and the same shape. -/
inductive SameCopy : PyObj V → PyObj V → Prop
  | mat (f : Fmt) (r c : Int) (P I P' I' : List Int) (D D' : List V) (a : Comp V) :
      SameCopy (.mat f ⟨r, c, P, I, D, some a⟩) (.mat f ⟨r, c, P', I', D', some a⟩)
  | coo (r c : Int) (P I P' I' : List Int) (D D' : List V) (a : Coo V) :
      SameCopy (.coo ⟨r, c, P, I, D, some a⟩) (.coo ⟨r, c, P', I', D', some a⟩)

theorem sameCopy {o : RefObj V} (h : o.copied = true) (s s' : Sess V) : SameCopy (o.get s) (o.get s') := by
  cases o with
  | mat f r c p i d hd => cases hd with | none => cases h | some a => exact .mat _ _ _ _ _ _ _ _ _ a
  | coo r c i j d hd => cases hd with | none => cases h | some a => exact .coo _ _ _ _ _ _ _ _ a
  | nd sh i d => cases h

theorem call_sameCopy {x y : PyObj V} (h : SameCopy x y) (env : PyEnv V) {fn : Fn V} (hfr : fn.frozen = true)
    (out : PyRes (PyObj V)) : fn.Call env x out ↔ fn.Call env y out := by
  cases h with
  | mat f r c P I P' I' D D' a =>
    cases f <;>
    · cases fn with
      | un op => cases op <;> first | (cases hfr; done) | exact Iff.rfl
      | scalar op α => cases op <;> first | (cases hfr; done) | exact Iff.rfl
      | left op α => cases op <;> exact Iff.rfl
      | T => exact Iff.rfl
      | prune eps => exact Iff.rfl
      | elimZeros => exact Iff.rfl
      | ndop op arg => cases hfr
      | mode g axis => cases hfr
  | coo r c P I P' I' D D' a =>
    cases fn with
    | un op => cases op <;> first | (cases hfr; done) | exact Iff.rfl
    | scalar op α => cases op <;> first | (cases hfr; done) | exact Iff.rfl
    | left op α => cases op <;> exact Iff.rfl
    | T => exact Iff.rfl
    | prune eps => exact Iff.rfl
    | elimZeros => exact Iff.rfl
    | ndop op arg => cases hfr
    | mode g axis => cases hfr

theorem bin_sameCopy {x y x' y' : PyObj V} (h : SameCopy x x') (h' : SameCopy y y') (env : PyEnv V) {op : BinOp}
    (hop : op.frozen = true) (out : PyRes (PyObj V)) : BinObj env op x y out ↔ BinObj env op x' y' out := by
  cases h with
  | mat f r c P I P' I' D D' a =>
    cases h' with
    | mat g r' c' Q J Q' J' E E' b =>
      by_cases hfg : f = g
      · subst hfg
        have key : ∀ o, BinMethod env.dbg f op (⟨r, c, P, I, D, some a⟩ : PyMat V) ⟨r', c', Q, J, E, some b⟩ o ↔
            BinMethod env.dbg f op (⟨r, c, P', I', D', some a⟩ : PyMat V) ⟨r', c', Q', J', E', some b⟩ o := by
          intro o
          cases f <;> cases op <;> first | (cases hop; done) | exact Iff.rfl
        simp only [BinObj, if_true, key]
      · simp only [BinObj, hfg, if_false]
    | coo r' c' Q J Q' J' E E' b => exact Iff.rfl
  | coo r c P I P' I' D D' a => cases h' <;> exact Iff.rfl

section
variable [HasFma V] [HasMinMax V] [HasSqrt V]

theorem ask_sameCopy {x y : PyObj V} (h : SameCopy x y) (env : PyEnv V) (search : List Int → Int → Nat) {q : Query V}
    (hq : q.frozen = true) (out : PyRes (Answer V)) : q.Ask env search x out ↔ q.Ask env search y out := by
  cases h with
  | mat f r c P I P' I' D D' a =>
    cases q with
    | reduce op axis kd => cases op <;> first | (cases hq; done) | (cases f <;> exact Iff.rfl)
    | linalg fn y =>
      cases fn with
      | matmul => cases f <;> exact Iff.rfl
      | tensordot axes =>
        obtain ⟨sh, y⟩ := y
        match sh with
        | [] => cases hq
        | [d] => cases f <;> exact Iff.rfl
        | d :: d' :: rest =>
          have hq : decide ((d :: d' :: rest).length = 1) = true := hq
          simp at hq
      | vecdot axis =>
        have hax : axis ≠ some 0 := by
          have hq : decide (axis ≠ some 0) = true := hq
          simpa using hq
        cases f <;> exact exists_congr fun o => and_congr (by
            rw [vecdot_sp rfl, vecdot_sp rfl]
            exact exists_congr fun o => and_congr (vecdot_operand hax (by rfl) (by rfl) _ _ _ _) Iff.rfl) Iff.rfl
    | _ => cases hq
  | coo r c P I P' I' D D' a =>
    cases q with
    | reduce op axis kd => cases op <;> first | (cases hq; done) | exact Iff.rfl
    | linalg fn y =>
      cases fn with
      | matmul => exact Iff.rfl
      | tensordot axes =>
        obtain ⟨sh, y⟩ := y
        match sh with
        | [] => cases hq
        | [d] => exact Iff.rfl
        | d :: d' :: rest =>
          have hq : decide ((d :: d' :: rest).length = 1) = true := hq
          simp at hq
      | vecdot axis =>
        have hax : axis ≠ some 0 := by
          have hq : decide (axis ≠ some 0) = true := hq
          simpa using hq
        exact exists_congr fun o => and_congr (by
            rw [vecdot_sp rfl, vecdot_sp rfl]
            exact exists_congr fun o => and_congr (vecdot_operand hax (by rfl) (by rfl) _ _ _ _) Iff.rfl) Iff.rfl
    | _ => cases hq

end

end
end Lacuna
