import Verif.Props.PyRebind
/-
C103: the shape of an object with a native copy is assigned to.
-/
namespace Lacuna
variable {V : Type}
section
variable [Zero V] [One V] [Add V] [Sub V] [Mul V] [Div V] [Neg V] [BEq V] [NatCast V] [HasFinite V]
  [HasFloor V] [HasPowf V] [HasAbs V] [HasLt V] [HasNan V] [HasFma V]

omit [One V] [Sub V] [Div V] [Neg V] [BEq V] [NatCast V] [HasFinite V] [HasFloor V] [HasPowf V] [HasAbs V] [HasLt V] [HasNan V] in
theorem spmvOut_mismatch {dbg : Bool} {nt N : Nat} {a : Native V} {y : List V} (h : y.length ≠ a.cols) {o : Except Fault (List V)} :
    SpmvOut dbg nt N a y o ↔ o = .error .panic := by
  cases a with
  | csr a => show SpmvPtrRun .. ↔ _; unfold SpmvPtrRun; rw [if_neg (show y.length ≠ a.ncols from h)]
  | csc a => show SpmvCscPtr .. ↔ _; unfold SpmvCscPtr; rw [if_neg (show y.length ≠ a.ncols from h)]
  | coo a => show SpmvCooPtr .. ↔ _; unfold SpmvCooPtr; rw [if_neg (show y.length ≠ a.ncols from h)]

omit [One V] [Sub V] [Div V] [Neg V] [BEq V] [NatCast V] [HasFinite V] [HasFloor V] [HasPowf V] [HasAbs V] [HasLt V] [HasNan V] in
theorem atMul_shape {dbg : Bool} {nt : Nat} {x : PySp V} {a : Native V} (hh : x.handle = some a) (hc : x.ncols = a.cols)
    (r' c' : Int) {y : DenseNd V} (hy : y.data.length = y.shape.prod) (out : PyRes (DenseNd V)) :
    AtMul dbg nt { x with nrows := r', ncols := c' } y out ↔
      if c' = x.ncols then AtMul dbg nt x y out
      else out = .raises (if y.shape.map Int.ofNat = [c'] then .panic else .valueError) := by
  have hop : ∀ r c, PySp.operand { x with nrows := r, ncols := c } = .ok a := by
    intro r c; simp only [PySp.operand, hh]
  unfold AtMul
  obtain ⟨shape, data⟩ := y
  match shape, hy with
  | [], _ => simp
  | [n], hy =>
    have hn : data.length = n := by simpa using hy
    simp only [MatVec, hop, hn]
    by_cases h1 : c' = x.ncols
    · rw [if_pos h1, h1]
    · rw [if_neg h1]
      by_cases h2 : (n : Int) = c'
      · rw [if_neg (not_not.2 h2)]
        have hne : data.length ≠ a.cols := by rw [hn]; intro h; exact h1 (by rw [← h2, hc, h])
        simp only [Settles, spmvOut_mismatch hne]
        have : List.map Int.ofNat [n] = [c'] := by rw [← h2]; rfl
        rw [if_pos this]
        constructor
        · rintro ⟨o, ⟨N, h⟩, rfl⟩
          rw [h N le_rfl]; rfl
        · rintro rfl
          exact ⟨_, ⟨0, fun _ _ => rfl⟩, rfl⟩
      · rw [if_pos h2, if_neg (by intro h; exact h2 (by simpa using h))]
  | [m, k], _ =>
    simp only [MatMat, hop]
    by_cases h1 : c' = x.ncols
    · rw [if_pos h1, h1]
    · rw [if_neg h1, if_neg (by simp : ¬ List.map Int.ofNat [m, k] = [c'])]
      by_cases h2 : (m : Int) = c'
      · rw [if_neg (not_not.2 h2), if_pos (by intro h; exact h1 (by rw [← h2, hc, h]))]
      · rw [if_pos h2]
  | _ :: _ :: _ :: _, _ => simp

/-- The shape of a `CSR`, `CSC` or `COO` object, whose native copy keeps its own.  After `x.shape = (r, c)` with arbitrary integers,
`x @ y` raises whenever `c` is not the number of columns at construction: `PanicException` if `y` is a vector of length `c`, otherwise
`ValueError`.  If it is, `x @ y` is what it was, whatever `r`. -/
theorem rebind_shape_at {env : PyEnv V} {s : Sess V} (hr : Sess.Visits PyEnv.Ok Sess.TameCmd s) {o : RefObj V} (ho : o ∈ s.objs)
    (hn : o.native = true) {rows cols : Nat} (hsh : (o.snap s).ty.shape = [rows, cols]) (r c : Int) :
    ∃ x x', (o.get s).sp = some x ∧ ((o.rebind (.shape [r, c])).get s).sp = some x' ∧
      ∀ (y : DenseNd V), y.Ok → ∀ out, AtMul env.dbg env.threads x' y out ↔
        if c = cols then AtMul env.dbg env.threads x y out
        else out = .raises (if y.shape.map Int.ofNat = [c] then .panic else .valueError) := by
  have hok := visits_inv hr o ho
  cases o with
  | nd _ _ _ => cases hn
  | mat f r₀ c₀ p i d h =>
    obtain ⟨a, rfl, -, h1, h2, -⟩ := hok
    cases f with
    | csr =>
      have hcol : c₀ = cols := by
        have : [a.n, a.m] = [rows, cols] := hsh
        simp only [List.cons.injEq, and_true] at this
        rw [h2, ← this.2]; rfl
      refine ⟨_, _, rfl, rfl, fun y hy out => ?_⟩
      rw [← hcol]
      exact atMul_shape (x := ⟨.csr, r₀, c₀, s.int p, s.int i, s.float d, some (.csr a.toCsr)⟩) (a := .csr a.toCsr) rfl h2 r c hy.1 out
    | csc =>
      have hcol : c₀ = cols := by
        have : [a.m, a.n] = [rows, cols] := hsh
        simp only [List.cons.injEq, and_true] at this
        rw [h2, ← this.2]; rfl
      refine ⟨_, _, rfl, rfl, fun y hy out => ?_⟩
      rw [← hcol]
      exact atMul_shape (x := ⟨.csc, r₀, c₀, s.int p, s.int i, s.float d, some (.csc a.toCsc)⟩) (a := .csc a.toCsc) rfl h2 r c hy.1 out
  | coo r₀ c₀ i j d h =>
    obtain ⟨a, rfl, -, h1, h2, -⟩ := hok
    have hcol : c₀ = cols := by
      have : [a.nrows, a.ncols] = [rows, cols] := hsh
      simp only [List.cons.injEq, and_true] at this
      rw [h2, ← this.2]
    refine ⟨_, _, rfl, rfl, fun y hy out => ?_⟩
    rw [← hcol]
    exact atMul_shape (x := ⟨.coo, r₀, c₀, s.int i, s.int j, s.float d, some (.coo a)⟩) (a := .coo a) rfl h2 r c hy.1 out

omit [Zero V] [One V] [Add V] [Sub V] [Mul V] [Div V] [Neg V] [BEq V] [NatCast V] [HasFinite V] [HasFloor V] [HasPowf V] [HasAbs V] [HasLt V]
  [HasNan V] [HasFma V] in
/-- Without `check`, nothing is compared with the number of columns (csr.rs 63–146). -/
theorem checkParts_minor {n m : Nat} {P I : List Int} {D : List V} (h : (⟨n, m, P, I, D⟩ : Comp V).WF) (hn : n + 1 ≤ usizeMax) (m' : Nat) :
    checkParts n m' P I D false = .ok () := by
  have h1 : P.length = n + 1 := h.ptr_length
  have h2 : D.length = I.length := h.data_length
  unfold checkParts
  rw [if_neg (by omega), if_neg (by rw [h1]; simp), if_neg (by rw [h2]; simp)]
  simp only []
  have hlast : P.getLast?.getD 0 = I.length := by
    have h3 : P.getD n 0 = I.length := h.ptr_last
    rw [← h3, List.getLast?_eq_getElem?, h1]
    simp [List.getD_eq_getElem?_getD]
  have hhead : P.head?.getD 0 = 0 := by
    have h3 : P.getD 0 0 = 0 := h.ptr_first
    rw [List.getD_eq_getElem?_getD] at h3
    rw [List.head?_eq_getElem?, h3]
  rw [hlast, hhead, if_neg, if_neg (by simp)]
  · rfl
  · rw [not_not, toUsize?_eq_some]

/-- C103 (negative): after `x.shape = (r, c')` with a smaller number of columns on a `CSR` object with a stored value in one of the columns
that were cut off, `tensordot(x, y, 1)` with a matrix `y` of shape `(c', k)` reads behind the end of `y`. -/
theorem rebind_shape_ub {env : PyEnv V} {s : Sess V} (hr : Sess.Visits PyEnv.Ok Sess.TameCmd s) {o : RefObj V} (ho : o ∈ s.objs)
    {a : Comp V} (hnow : o.now s = .mat .csr a) {i : Nat} (hi : i < a.n) {e : Int × V} (he : e ∈ a.row i) {c' k : Nat}
    (hc : (c' : Int) ≤ e.1) (hk : 0 < k) {y : DenseNd V} (hy : y.Ok) (hsh : y.shape = [c', k])
    (hsr : 8 * ((a.n * k : Nat) : Int) ≤ i64Max) (hsc : 8 * ((a.m * k : Nat) : Int) ≤ i64Max) :
    LinSparseDense env (.tensordot (.int 1)) ((o.rebind (.shape [(a.n : Int), (c' : Int)])).get s) y .ub := by
  have hok := visits_inv hr o ho
  cases o with
  | nd _ _ _ => cases hnow
  | coo _ _ _ _ _ _ => cases hnow
  | mat f r₀ c₀ p i' d h =>
    obtain ⟨b, rfl, -, h1, h2, P, I, D, hp, hI, hD, hg⟩ := hok
    cases f with
    | csc => cases hnow
    | csr =>
    have hh := hg.held
    have hg1 := hh.wf
    have ha : a = ⟨b.n, b.m, P, I, D⟩ := by
      have hnow' : SpVal.mat .csr ⟨r₀.toNat, c₀.toNat, s.int p, s.int i', s.float d⟩ = SpVal.mat .csr a := hnow
      rw [int_of hp, int_of hI, float_of hD, h1, h2] at hnow'
      cases hnow'
      rfl
    obtain ⟨y, data⟩ := y
    cases hsh
    have hlen : data.length = c' * k := by simpa using hy.1
    have hbytes : 8 * (data.length : Int) ≤ i64Max := hy.2
    subst ha
    have hn := hh.n_le
    have hu := Comp.WF.wfu hg1
    have hb : ∀ i, ∀ e ∈ (⟨b.n, b.m, P, I, D⟩ : Comp V).row i, 0 ≤ e.1 ∧ e.1 < b.m := fun i e he => hu.row_bounds i e he
    have hm := hh.m_le
    have hcb : c' < b.m := by have := (hb i e he).2; omega
    have hsc' : 8 * ((b.m * k : Nat) : Int) ≤ i64Max := hsc
    have hmul : b.m * k ≤ usizeMax := bytes_usize hsc'
    have hk1 : k ≤ b.m * k := Nat.le_mul_of_pos_left k (by omega)
    have hck : c' * k ≤ b.m * k := Nat.mul_le_mul_right k hcb.le
    have hparts : ∀ z, PySp.parts (⟨.csr, (b.n : Int), (c' : Int), P, I, D, z⟩ : PySp V) = .ok (.csr ⟨b.n, c', P, I, D⟩) := by
      intro z
      show nativeOf .csr (b.n : Int) (c' : Int) P I D false = _
      unfold nativeOf
      rw [pyUsize_nat (by have : b.n + 1 ≤ usizeMax := hn; omega), pyUsize_nat (by have : b.m ≤ usizeMax := hm; omega)]
      show Except.map _ (Except.mapError _ (Csr.fromParts b.n c' P I D false)) = _
      unfold Csr.fromParts
      rw [checkParts_minor hg1 hn]; rfl
    have hsp : ((RefObj.rebind (.mat .csr r₀ c₀ p i' d (some b)) (.shape [(b.n : Int), (c' : Int)])).get s).sp =
        some ⟨.csr, (b.n : Int), (c' : Int), P, I, D, some (.csr b.toCsr)⟩ := by
      show some (⟨.csr, (b.n : Int), (c' : Int), s.int p, s.int i', s.float d, _⟩ : PySp V) = _
      rw [int_of hp, int_of hI, float_of hD]; rfl
    have hub : ∀ F, 129 ≤ F → TensordotOut env.dbg F (.csr ⟨b.n, c', P, I, D⟩ : Native V) data [c', k] (.error .ub) := by
      intro F hF
      have ht : tensordotCols c' data.length [c', k] = some k := by
        have := tensordotCols_eq (m := c') (rest := [k]) (blen := data.length) (by simpa using hk) (by simp; omega) (by simp; omega) (by simpa using hlen)
        simpa using this
      show (match tensordotCols c' data.length [c', k] with | none => _ | some k => _)
      rw [ht]
      have hpo : (⟨b.n, c', P, I, D⟩ : Comp V).PtrOk := by
        have := Comp.WFU.ptrOk hu
        exact ⟨this.1, this.2, this.3, this.4, this.5⟩
      have hma : (⟨b.n, c', P, I, D⟩ : Comp V).Machine := by
        have := hh.mach
        exact ⟨this.1, this.2, this.3, this.4⟩
      have hcol : ∀ e : Int × V, 0 ≤ e.1 → e.1 < b.m → i64ToUsize e.1 = e.1.toNat ∧ i64ToUsize e.1 * k + k ≤ b.m * k := by
        intro e h0 h1
        have h2 : i64ToUsize e.1 = e.1.toNat :=
          i64ToUsize_of_nonneg h0 (by have : b.m ≤ b.m * k := Nat.le_mul_of_pos_right _ hk; omega)
        refine ⟨h2, ?_⟩
        rw [h2, ← Nat.succ_mul]
        exact Nat.mul_le_mul_right k (by omega)
      refine spmm_csr_ub (a := ⟨b.n, c', P, I, D⟩) hpo hma hk hlen hbytes hsr (by omega) hi (fun _ e' he' => ?_) ⟨e, he, ?_⟩
      · have := hb i e' he'
        exact ⟨this.1, (hcol e' this.1 this.2).2.trans hmul⟩
      · have hbe := hb i e he
        obtain ⟨g1, g2⟩ := hcol e hbe.1 hbe.2
        rw [Nat.mod_eq_of_lt (by unfold usizeMax at hmul; omega), g1, hlen]
        exact Nat.mul_le_mul_right k (by omega)
    show LinSparseDense env (.tensordot (.int 1)) ((RefObj.rebind (.mat .csr r₀ c₀ p i' d (some b)) (.shape [(b.n : Int), (c' : Int)])).get s) _ _
    have : LinSparseDense env (.tensordot (.int 1)) ((RefObj.rebind (.mat .csr r₀ c₀ p i' d (some b)) (.shape [(b.n : Int), (c' : Int)])).get s)
        ⟨[c', k], data⟩ .ub ↔ ∃ o, PyTensordot env.dbg env.threads (.int 1)
          ⟨.csr, (b.n : Int), (c' : Int), P, I, D, some (.csr b.toCsr)⟩ ⟨[c', k], data⟩ o ∧ (.ub : PyRes (LinRes V)) = o.bind fun r => .ret (.dense r) := by
      unfold LinSparseDense
      rw [hsp]
    rw [this]
    refine ⟨.ub, ?_, rfl⟩
    show (if _ then _ else _)
    rw [if_neg (by simp), hparts]
    show (if _ then _ else _)
    rw [if_neg (by show ¬ c' ≠ c'; simp)]
    exact ⟨.error .ub, ⟨129, hub⟩, rfl⟩

omit [One V] [Sub V] [Div V] [Neg V] [NatCast V] [HasFinite V] [HasFloor V] [HasPowf V] [HasAbs V] [HasLt V] [HasNan V] in
/-- `tensordot` with a matrix on the attributes of an object. -/
theorem tensordot_parts_ub {env : PyEnv V} {x : PyObj V} {z : PySp V} (hsp : x.sp = some z) {a : Native V} (hp : z.parts = .ok a) {c k : Nat}
    (hzc : z.ncols = c) (hac : a.cols = c) {data : List V} (hlen : data.length = c * k) (hk : 0 < k) (hku : k ≤ usizeMax)
    (hck : c * k ≤ usizeMax) (h : ∀ F, 129 ≤ F → SpmmOut env.dbg F a data k (.error .ub)) :
    LinSparseDense env (.tensordot (.int 1)) x ⟨[c, k], data⟩ .ub := by
  have : LinSparseDense env (.tensordot (.int 1)) x ⟨[c, k], data⟩ .ub ↔ ∃ o, PyTensordot env.dbg env.threads (.int 1) z ⟨[c, k], data⟩ o ∧
      (.ub : PyRes (LinRes V)) = o.bind fun r => .ret (.dense r) := by
    unfold LinSparseDense
    rw [hsp]
  rw [this]
  refine ⟨.ub, ?_, rfl⟩
  show (if _ then _ else _)
  rw [if_neg (by rw [hzc]; simp), hp]
  show (if _ then _ else _)
  rw [if_neg (by rw [hac]; simp)]
  refine ⟨.error .ub, ⟨129, fun F hF => ?_⟩, rfl⟩
  have ht : tensordotCols c data.length [c, k] = some k := by
    have := tensordotCols_eq (m := c) (rest := [k]) (blen := data.length) (by simpa using hk) (by simpa using hku) (by simpa using hck)
      (by simpa using hlen)
    simpa using this
  unfold TensordotOut
  rw [hac, ht]
  exact h F hF

omit [Zero V] [One V] [Add V] [Sub V] [Mul V] [Div V] [Neg V] [BEq V] [NatCast V] [HasFinite V] [HasFloor V] [HasPowf V] [HasAbs V] [HasLt V]
  [HasNan V] [HasFma V] in
/-- A position below the old length. -/
theorem shape_col {j : Int} {m k : Nat} (h0 : 0 ≤ j) (h1 : j < m) (hk : 0 < k) (hs : 8 * ((m * k : Nat) : Int) ≤ i64Max) :
    i64ToUsize j = j.toNat ∧ i64ToUsize j * k + k ≤ m * k := by
  have h2 : i64ToUsize j = j.toNat :=
    i64ToUsize_of_nonneg h0 (by have : m ≤ m * k := Nat.le_mul_of_pos_right _ hk; omega)
  refine ⟨h2, ?_⟩
  rw [h2, ← Nat.succ_mul]
  exact Nat.mul_le_mul_right k (by omega)

/-- C103 (negative), `CSC`: with a smaller number of rows, `tensordot(x, y, 1)` writes behind the end of its result. -/
theorem rebind_shape_ub_csc {env : PyEnv V} {s : Sess V} (hr : Sess.Visits PyEnv.Ok Sess.TameCmd s) {o : RefObj V} (ho : o ∈ s.objs)
    {a : Comp V} (hnow : o.now s = .mat .csc a) {j : Nat} (hj : j < a.n) {e : Int × V} (he : e ∈ a.row j) {r' k : Nat}
    (hr' : 0 < r') (hc : (r' : Int) ≤ e.1) (hk : 0 < k) {y : DenseNd V} (hy : y.Ok) (hsh : y.shape = [a.n, k])
    (hsr : 8 * ((a.m * k : Nat) : Int) ≤ i64Max) :
    LinSparseDense env (.tensordot (.int 1)) ((o.rebind (.shape [(r' : Int), (a.n : Int)])).get s) y .ub := by
  have hok := visits_inv hr o ho
  cases o with
  | nd _ _ _ => cases hnow
  | coo _ _ _ _ _ _ => cases hnow
  | mat f r₀ c₀ p i' d h =>
    obtain ⟨b, rfl, -, h1, h2, P, I, D, hp, hI, hD, hg⟩ := hok
    cases f with
    | csr => cases hnow
    | csc =>
    have hh := hg.held
    have hg1 := hh.wf
    have ha : a = ⟨b.n, b.m, P, I, D⟩ := by
      have hnow' : SpVal.mat .csc ⟨c₀.toNat, r₀.toNat, s.int p, s.int i', s.float d⟩ = SpVal.mat .csc a := hnow
      rw [int_of hp, int_of hI, float_of hD, h1, h2] at hnow'
      cases hnow'
      rfl
    obtain ⟨y, data⟩ := y
    cases hsh
    subst ha
    have hlen : data.length = b.n * k := by simpa using hy.1
    have hbytes : 8 * (data.length : Int) ≤ i64Max := hy.2
    have hn : b.n + 1 ≤ usizeMax := hh.n_le
    have hu := Comp.WF.wfu hg1
    have hb : ∀ i, ∀ e ∈ (⟨b.n, b.m, P, I, D⟩ : Comp V).row i, 0 ≤ e.1 ∧ e.1 < b.m := fun i e he => hu.row_bounds i e he
    have hm : b.m ≤ usizeMax := hh.m_le
    have hcb : r' < b.m := by have := (hb j e he).2; omega
    have hs' : 8 * ((b.m * k : Nat) : Int) ≤ i64Max := hsr
    have hmul : b.m * k ≤ usizeMax := bytes_usize hs'
    have hk1 : k ≤ b.m * k := Nat.le_mul_of_pos_left k (by omega)
    have hrk : r' * k ≤ b.m * k := Nat.mul_le_mul_right k hcb.le
    have hz : spmmZerosP (V := V) env.dbg r' k = .ok (List.replicate (r' * k) 0) := spmmZerosP_eq (by omega)
    have hparts : PySp.parts (⟨.csc, (r' : Int), (b.n : Int), P, I, D, some (.csc b.toCsc)⟩ : PySp V) = .ok (.csc ⟨r', b.n, P, I, D⟩) := by
      show nativeOf .csc (r' : Int) (b.n : Int) P I D false = _
      unfold nativeOf
      rw [pyUsize_nat (by omega), pyUsize_nat (by omega)]
      show Except.map _ (Except.mapError _ (Csc.fromParts r' b.n P I D false)) = _
      unfold Csc.fromParts
      rw [checkParts_minor hg1 hn]; rfl
    have hsp : ((RefObj.rebind (.mat .csc r₀ c₀ p i' d (some b)) (.shape [(r' : Int), (b.n : Int)])).get s).sp =
        some ⟨.csc, (r' : Int), (b.n : Int), P, I, D, some (.csc b.toCsc)⟩ := by
      show some (⟨.csc, (r' : Int), (b.n : Int), s.int p, s.int i', s.float d, _⟩ : PySp V) = _
      rw [int_of hp, int_of hI, float_of hD]; rfl
    refine tensordot_parts_ub hsp hparts rfl rfl hlen hk (by omega) (by rw [← hlen]; exact bytes_usize hbytes) fun F hF => ?_
    have hpo : (⟨b.n, r', P, I, D⟩ : Comp V).PtrOk := by
      have := Comp.WFU.ptrOk hu
      exact ⟨this.1, this.2, this.3, this.4, this.5⟩
    have hma : (⟨b.n, r', P, I, D⟩ : Comp V).Machine := by
      have := hh.mach
      exact ⟨this.1, this.2, this.3, this.4⟩
    refine spmm_csc_ub (a := ⟨r', b.n, P, I, D⟩) hpo hma hk hr' hlen hbytes hz
      (by unfold i64Max at hs'; unfold usizeMax; omega) (by omega) (fun _ j' _ e' he' => ?_) ⟨j, hj, e, he, ?_⟩
    · have := hb j' e' he'
      exact ⟨this.1, (shape_col this.1 this.2 hk hs').2.trans hmul⟩
    · have hbe := hb j e he
      obtain ⟨g1, g2⟩ := shape_col hbe.1 hbe.2 hk hs'
      rw [Nat.mod_eq_of_lt (by unfold usizeMax at hmul; omega), g1, List.length_replicate]
      exact Nat.mul_le_mul_right k (by omega)

/-- C103 (negative), `COO`: with fewer rows it writes behind the end of the result, with fewer columns it reads behind the end of `y`. -/
theorem rebind_shape_ub_coo {env : PyEnv V} {s : Sess V} (hr : Sess.Visits PyEnv.Ok Sess.TameCmd s) {o : RefObj V} (ho : o ∈ s.objs)
    {a : Coo V} (hnow : o.now s = .coo a) {e : (Int × Int) × V} (he : e ∈ a.triples) {r' c' k : Nat} (hr' : 0 < r')
    (hrn : r' ≤ a.nrows) (hcn : c' ≤ a.ncols) (hc : (r' : Int) ≤ e.1.1 ∨ (c' : Int) ≤ e.1.2) (hk : 0 < k) {y : DenseNd V} (hy : y.Ok)
    (hsh : y.shape = [c', k]) (hsr : 8 * ((a.nrows * k : Nat) : Int) ≤ i64Max) (hsc : 8 * ((a.ncols * k : Nat) : Int) ≤ i64Max) :
    LinSparseDense env (.tensordot (.int 1)) ((o.rebind (.shape [(r' : Int), (c' : Int)])).get s) y .ub := by
  have hok := visits_inv hr o ho
  cases o with
  | nd _ _ _ => cases hnow
  | mat f _ _ _ _ _ _ => cases f <;> cases hnow
  | coo r₀ c₀ i j d h =>
    obtain ⟨b, rfl, -, h1, h2, I, J, D, hI, hJ, hD, hg⟩ := hok
    have ha : a = ⟨b.nrows, b.ncols, I, J, D⟩ := by
      have hnow' : SpVal.coo ⟨r₀.toNat, c₀.toNat, s.int i, s.int j, s.float d⟩ = SpVal.coo a := hnow
      rw [int_of hI, int_of hJ, float_of hD, h1, h2] at hnow'
      cases hnow'
      rfl
    obtain ⟨y, data⟩ := y
    cases hsh
    subst ha
    have hw : (⟨b.nrows, b.ncols, I, J, D⟩ : Coo V).WF := hg.1.1
    have hlen : data.length = c' * k := by simpa using hy.1
    have hbytes : 8 * (data.length : Int) ≤ i64Max := hy.2
    have hb := hw.triple_bounds
    have hsr' : 8 * ((b.nrows * k : Nat) : Int) ≤ i64Max := hsr
    have hsc' : 8 * ((b.ncols * k : Nat) : Int) ≤ i64Max := hsc
    have hrn' : r' ≤ b.nrows := hrn
    have hcn' : c' ≤ b.ncols := hcn
    have hk1 : k ≤ b.nrows * k := Nat.le_mul_of_pos_left k (by omega)
    have hr1 : b.nrows ≤ b.nrows * k := Nat.le_mul_of_pos_right _ hk
    have hc1 : b.ncols ≤ b.ncols * k := Nat.le_mul_of_pos_right _ hk
    have hrk : r' * k ≤ b.nrows * k := Nat.mul_le_mul_right k hrn'
    have hmr : b.nrows * k ≤ usizeMax := bytes_usize hsr'
    have hmc : b.ncols * k ≤ usizeMax := bytes_usize hsc'
    have hz : spmmZerosP (V := V) env.dbg r' k = .ok (List.replicate (r' * k) 0) := spmmZerosP_eq (by omega)
    have hparts : PySp.parts (⟨.coo, (r' : Int), (c' : Int), I, J, D, some (.coo b)⟩ : PySp V) = .ok (.coo ⟨r', c', I, J, D⟩) := by
      show nativeOf .coo (r' : Int) (c' : Int) I J D false = _
      unfold nativeOf
      rw [pyUsize_nat (by omega), pyUsize_nat (by omega)]
      show Except.map _ (Except.mapError _ (Coo.fromParts r' c' I J D false)) = _
      unfold Coo.fromParts
      rw [if_neg (by rintro (h | h); exact h hw.row_length; exact h hw.col_length)]
      rfl
    have hsp : ((RefObj.rebind (.coo r₀ c₀ i j d (some b)) (.shape [(r' : Int), (c' : Int)])).get s).sp =
        some ⟨.coo, (r' : Int), (c' : Int), I, J, D, some (.coo b)⟩ := by
      show some (⟨.coo, (r' : Int), (c' : Int), s.int i, s.int j, s.float d, _⟩ : PySp V) = _
      rw [int_of hI, int_of hJ, float_of hD]; rfl
    refine tensordot_parts_ub hsp hparts rfl rfl hlen hk (by omega) (by rw [← hlen]; exact bytes_usize hbytes) fun F hF => ?_
    refine spmm_coo_ub (a := ⟨r', c', I, J, D⟩) (le_of_eq hw.row_length.symm) (le_of_eq hw.col_length.symm) hk hr' hlen hbytes hz
      (by unfold i64Max at hsr'; unfold usizeMax; omega) (by omega) (fun _ e' he' => ?_) ⟨e, he, ?_⟩
    · obtain ⟨⟨g1, g2⟩, g3, g4⟩ := hb e' he'
      exact ⟨g1, g3, (shape_col g1 g2 hk hsr').2.trans hmr, (shape_col g3 g4 hk hsc').2.trans hmc⟩
    · obtain ⟨⟨g1, g2⟩, g3, g4⟩ := hb e he
      obtain ⟨q1, q2⟩ := shape_col (m := b.nrows) g1 g2 hk hsr'
      obtain ⟨q3, q4⟩ := shape_col (m := b.ncols) g3 g4 hk hsc'
      rcases hc with hc | hc
      · right
        rw [Nat.mod_eq_of_lt (by unfold usizeMax at hmr; omega), q1, List.length_replicate]
        exact Nat.mul_le_mul_right k (by omega)
      · left
        rw [Nat.mod_eq_of_lt (by unfold usizeMax at hmc; omega), q3, hlen]
        exact Nat.mul_le_mul_right k (by omega)

end

/-! ### examples -/

section
attribute [local instance] meaningHasFinite meaningHasFloor meaningHasPowf meaningHasLt meaningHasAbs meaningHasNan meaningIdealOrd

/-- A 2×3 `CSR` object after `x.shape = (2, 4)`: `x @ y` panics for vectors of length 4, and raises `ValueError` for those of length 3. -/
example (dbg : Bool) [HasFma ℚ] : ∃ x', ((RefObj.rebind (.mat .csr 2 3 0 1 0 (some ⟨2, 3, [0, 2, 3], [0, 2, 1], [5, 6, 7]⟩)) (.shape [2, 4])).get
      exTwo).sp = some x' ∧
    (∀ out, AtMul dbg (exEnvQ dbg).threads x' ⟨[4], [1, 1, 1, 1]⟩ out ↔ out = .raises .panic) ∧
    ∀ out, AtMul dbg (exEnvQ dbg).threads x' ⟨[3], [1, 1, 1]⟩ out ↔ out = .raises .valueError := by
  obtain ⟨x, x', -, h2, h3⟩ := rebind_shape_at (env := exEnvQ dbg) (exTwo_visits (exEnvQ_ok dbg))
    (o := .mat .csr 2 3 0 1 0 (some ⟨2, 3, [0, 2, 3], [0, 2, 1], [5, 6, 7]⟩)) (List.mem_cons_self ..) rfl (rows := 2) (cols := 3) rfl 2 4
  exact ⟨x', h2, fun out => h3 ⟨[4], [1, 1, 1, 1]⟩ ⟨rfl, by decide⟩ out, fun out => h3 ⟨[3], [1, 1, 1]⟩ ⟨rfl, by decide⟩ out⟩

/-- The same object after `x.shape = (2, 2)`: `tensordot(x, y, 1)` with a `y` of shape `(2, 1)` is undefined. -/
example (dbg : Bool) [HasFma ℚ] : LinSparseDense (exEnvQ dbg) (.tensordot (.int 1))
    ((RefObj.rebind (.mat .csr 2 3 0 1 0 (some ⟨2, 3, [0, 2, 3], [0, 2, 1], [5, 6, 7]⟩)) (.shape [2, 2])).get exTwo) ⟨[2, 1], [1, 1]⟩ .ub :=
  rebind_shape_ub (exTwo_visits (exEnvQ_ok dbg)) (o := .mat .csr 2 3 0 1 0 (some ⟨2, 3, [0, 2, 3], [0, 2, 1], [5, 6, 7]⟩)) (List.mem_cons_self ..)
    (a := ⟨2, 3, [0, 2, 3], [0, 2, 1], [5, 6, 7]⟩) rfl (i := 0) (by decide) (e := (2, 6)) (by decide) (c' := 2) (k := 1) (by decide)
    Nat.one_pos ⟨rfl, by decide⟩ rfl (by decide) (by decide)

/-- The `CSC` object that shares its arrays, after `x.shape = (2, 2)`: `tensordot(x, y, 1)` is undefined. -/
example (dbg : Bool) [HasFma ℚ] : LinSparseDense (exEnvQ dbg) (.tensordot (.int 1))
    ((RefObj.rebind (.mat .csc 3 2 0 1 0 (some ⟨2, 3, [0, 2, 3], [0, 2, 1], [5, 6, 7]⟩)) (.shape [2, 2])).get exTwo) ⟨[2, 1], [1, 1]⟩ .ub :=
  rebind_shape_ub_csc (exTwo_visits (exEnvQ_ok dbg)) (o := .mat .csc 3 2 0 1 0 (some ⟨2, 3, [0, 2, 3], [0, 2, 1], [5, 6, 7]⟩))
    (List.mem_cons_of_mem _ (List.mem_cons_self ..)) (a := ⟨2, 3, [0, 2, 3], [0, 2, 1], [5, 6, 7]⟩) rfl (j := 0) (by decide)
    (e := (2, 6)) (by decide) (r' := 2) (k := 1) (by decide) (by decide) Nat.one_pos ⟨rfl, by decide⟩ rfl (by decide)

/-- A session with a 2×3 `COO` object. -/
def exShapeCoo : Sess ℚ := ⟨[[0, 1], [2, 0]], [[5, 6]], [.coo 2 3 0 1 0 (some ⟨2, 3, [0, 1], [2, 0], [5, 6]⟩)]⟩

theorem exShapeCoo_visits (dbg : Bool) : Sess.Visits PyEnv.Ok Sess.TameCmd exShapeCoo := by
  have he := exEnvQ_ok dbg
  refine .step (s := ⟨[[0, 1], [2, 0]], [[5, 6]], []⟩) (c := .run (.coo 2 3 0 1 0)) ?_ he ?_ ?_
  · refine .step (s := ⟨[[0, 1], [2, 0]], [], []⟩) (c := .run (.floats [5, 6])) ?_ he trivial rfl
    refine .step (s := ⟨[[0, 1]], [], []⟩) (c := .run (.ints [2, 0])) ?_ he trivial rfl
    exact .step (s := .start) (c := .run (.ints [0, 1])) .start he trivial rfl
  · show (Prog.coo 2 3 [0, 1] [2, 0] [(5 : ℚ), 6]).LitsOk ∧ (Prog.coo 2 3 [0, 1] [2, 0] [(5 : ℚ), 6]).Fits
    refine ⟨⟨by decide, by decide, ?_⟩, ?_⟩
    · exact ⟨⟨rfl, rfl, by decide, by decide⟩, by decide, by decide⟩
    · show Ty.SizeOk 2 (.coo 2 3); decide
  · exact ⟨_, _, _, rfl, rfl, rfl, rfl⟩

/-- Three columns become two: `tensordot(x, y, 1)` is undefined. -/
example (dbg : Bool) [HasFma ℚ] : LinSparseDense (exEnvQ dbg) (.tensordot (.int 1))
    ((RefObj.rebind (.coo 2 3 0 1 0 (some ⟨2, 3, [0, 1], [2, 0], [5, 6]⟩)) (.shape [2, 2])).get exShapeCoo) ⟨[2, 1], [1, 1]⟩ .ub :=
  rebind_shape_ub_coo (exShapeCoo_visits dbg) (o := .coo 2 3 0 1 0 (some ⟨2, 3, [0, 1], [2, 0], [5, 6]⟩)) (List.mem_cons_self ..)
    (a := ⟨2, 3, [0, 1], [2, 0], [5, 6]⟩) rfl (e := ((0, 2), 5)) (by decide) (r' := 2) (c' := 2) (k := 1) (by decide) (by decide) (by decide)
    (.inr (by decide)) Nat.one_pos ⟨rfl, by decide⟩ rfl (by decide) (by decide)

end
end Lacuna
