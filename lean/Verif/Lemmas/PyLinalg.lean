import Verif.Spec.PyLinalg
import Verif.Lemmas.PyClass
import Verif.Props.PtrScatter
import Verif.Props.PtrSpmm
import Verif.Props.PtrNdMm
import Verif.Props.PtrNdAcc
import Verif.Props.Matmul
/-
Lemmas for the Python linear algebra functions.
-/
namespace Lacuna
variable {V : Type}

/-! ### construction -/

theorem nativeOf_csr (r c : Int) (p i : List Int) (d : List V) (chk : Bool) :
    nativeOf .csr r c p i d chk = (nativeNew .csr r c p i d chk).map fun c => .csr c.toCsr := by
  unfold nativeOf nativeNew
  cases pyUsize r with
  | error e => rfl
  | ok r' =>
  cases pyUsize c with
  | error e => rfl
  | ok c' =>
    show ((Csr.fromParts r' c' p i d chk).mapError _).map _ = Except.map _ (((Csr.fromParts r' c' p i d chk).mapError _).map _)
    cases Csr.fromParts r' c' p i d chk <;> rfl

theorem nativeOf_csc (r c : Int) (p i : List Int) (d : List V) (chk : Bool) :
    nativeOf .csc r c p i d chk = (nativeNew .csc r c p i d chk).map fun c => .csc c.toCsc := by
  unfold nativeOf nativeNew
  cases pyUsize r with
  | error e => rfl
  | ok r' =>
  cases pyUsize c with
  | error e => rfl
  | ok c' =>
    show ((Csc.fromParts r' c' p i d chk).mapError _).map _ = Except.map _ (((Csc.fromParts r' c' p i d chk).mapError _).map _)
    cases Csc.fromParts r' c' p i d chk <;> rfl

theorem nativeOf_coo {r c : Int} {p i : List Int} {d : List V} {chk : Bool} {r' c' : Nat} (hr : pyUsize r = .ok r')
    (hc : pyUsize c = .ok c') : nativeOf .coo r c p i d chk =
      ((Coo.fromParts r' c' p i d chk).mapError fun _ => PyErr.valueError).map .coo := by
  unfold nativeOf; rw [hr, hc]; rfl

/-- Validated arrays: the native matrix has the given shape and arrays, is valid, and the unchecked
constructors build the same. -/
theorem nativeOf_true_ok {cls : Cls} {r c : Int} {ix1 ix2 : List Int} {data : List V} {a : Native V}
    (h1 : ∀ j ∈ ix1, j ≤ i64Max) (h2 : ∀ j ∈ ix2, j ≤ i64Max) (h : nativeOf cls r c ix1 ix2 data true = .ok a) :
    a.Valid ∧ r = a.rows ∧ c = a.cols ∧ a.nnz = data.length ∧ nativeOf cls r c ix1 ix2 data false = .ok a := by
  cases cls with
  | csr =>
    rw [nativeOf_csr] at h ⊢
    cases hn : nativeNew .csr r c ix1 ix2 data true with
    | error e => rw [hn] at h; cases h
    | ok k =>
      rw [hn] at h
      cases h
      obtain ⟨w, -, -, e1, e2, -, -, e5⟩ := nativeNew_true_ok h2 hn
      rw [nativeNew_false_of_true hn]
      exact ⟨Comp.WF.wfu w, e1, e2, congrArg List.length e5, rfl⟩
  | csc =>
    rw [nativeOf_csc] at h ⊢
    cases hn : nativeNew .csc r c ix1 ix2 data true with
    | error e => rw [hn] at h; cases h
    | ok k =>
      rw [hn] at h
      cases h
      obtain ⟨w, -, -, e1, e2, -, -, e5⟩ := nativeNew_true_ok h2 hn
      rw [nativeNew_false_of_true hn]
      exact ⟨Comp.WF.wfu w, e1, e2, congrArg List.length e5, rfl⟩
  | coo =>
    cases hr : pyUsize r with
    | error e => unfold nativeOf at h; rw [hr] at h; cases h
    | ok r' =>
    cases hc : pyUsize c with
    | error e => unfold nativeOf at h; rw [hr, hc] at h; cases h
    | ok c' =>
      rw [nativeOf_coo hr hc] at h ⊢
      obtain ⟨rfl, hr'⟩ := pyUsize_ok hr
      obtain ⟨rfl, hc'⟩ := pyUsize_ok hc
      cases hp : Coo.fromParts r' c' ix1 ix2 data true with
      | error m => rw [hp] at h; cases h
      | ok m =>
        rw [hp] at h
        cases h
        obtain ⟨rfl, w⟩ := (coo_fromParts_iff r' c' ix1 ix2 data m).1 hp
        have hf : Coo.fromParts r' c' ix1 ix2 data false = .ok ⟨r', c', ix1, ix2, data⟩ := by
          unfold Coo.fromParts
          rw [if_neg (by
            rintro (h | h)
            · exact h w.row_length
            · exact h w.col_length)]
          rfl
        rw [hf]
        exact ⟨⟨w, h1, h2⟩, rfl, rfl, rfl, rfl⟩

theorem PySp.operand_holds {x : PySp V} {a : Native V} (h : x.Holds a) : x.operand = .ok a := by
  unfold PySp.operand; rw [h.2.2.1]

/-! ### kernels with one result -/

theorem settles_returns {α : Type} {P : Nat → Except Fault α → Prop} {y : α} (N₀ : Nat)
    (h : ∀ N, N₀ ≤ N → Returns (P N) fun z => z = y) (o : Except Fault α) : Settles P o ↔ o = .ok y := by
  refine settles_iff N₀ fun N hN o => ⟨fun ho => ?_, ?_⟩
  · obtain ⟨z, rfl, rfl⟩ := (h N hN).2 o ho; rfl
  · rintro rfl
    obtain ⟨z, hz⟩ := (h N hN).1
    obtain ⟨z', e, rfl⟩ := (h N hN).2 _ hz
    cases e; exact hz

theorem eq_range_map [Zero V] {y : List V} {n : Nat} {f : Nat → V} (hl : y.length = n)
    (h : ∀ i, i < n → y.getD i 0 = f i) : y = (List.range n).map f := by
  refine List.ext_getElem (by simp [hl]) fun i h1 h2 => ?_
  have := h i (by omega)
  rw [List.getD_eq_getElem _ _ h1] at this
  simp [this]

theorem isMatProd_unique [Semiring V] {n m k : Nat} {val : Nat → Nat → V} {b y z : List V}
    (hy : IsMatProd n m k val b y) (hz : IsMatProd n m k val b z) : y = z := by
  refine List.ext_getElem (by rw [hy.1, hz.1]) fun p h1 h2 => ?_
  have hp : p < n * k := by rw [← hy.1]; exact h1
  have hk : 0 < k := Nat.pos_of_ne_zero fun h => by simp [h] at hp
  have e := Nat.div_add_mod p k
  have hi : p / k < n := Nat.div_lt_of_lt_mul (by rwa [Nat.mul_comm])
  have a1 := hy.2 (p / k) (p % k) hi (Nat.mod_lt _ hk)
  have a2 := hz.2 (p / k) (p % k) hi (Nat.mod_lt _ hk)
  rw [show p / k * k + p % k = p by rw [Nat.mul_comm]; exact e] at a1 a2
  rw [List.getD_eq_getElem _ _ h1] at a1
  rw [List.getD_eq_getElem _ _ h2] at a2
  rw [a1, a2]

theorem Native.Fits.csr {a : Csr V} (h : (Native.csr a).Fits) (hw : a.WFU) : a.comp.Machine :=
  Comp.WFU.machine hw h.1 (by have : 24 * (a.data.length : Int) ≤ i64Max := h.2.2; show 8 * (a.data.length : Int) ≤ i64Max; omega)

theorem Native.Fits.csc {a : Csc V} (h : (Native.csc a).Fits) (hw : a.WFU) : a.comp.Machine :=
  Comp.WFU.machine hw h.2.1 (by have : 24 * (a.data.length : Int) ≤ i64Max := h.2.2; show 8 * (a.data.length : Int) ≤ i64Max; omega)

theorem vecdot_csc_ptr_sum [Semiring V] [HasFma V] [IdealFma V] {a : Csc V} (ha : a.WFU) (hm : a.comp.Machine) {x : List V}
    (hx : x.length = a.nrows) (dbg : Bool) :
    ∃ y, y.length = a.ncols ∧
      (∀ j, j < a.ncols → y.getD j 0 = ((List.range a.nrows).map fun i => a.val i j * x.getD i 0).sum) ∧
      ∀ F, a.indices.length < F → ∀ out, VecdotCscPtrRun dbg F a x out ↔ out = .ok y := by
  obtain ⟨y, e, h1, h2⟩ := vecdot_csc_correct ha x hx
  refine ⟨y, h1, h2, fun F hF out => ?_⟩
  rw [vecdot_csc_exact ha, if_pos hx] at e
  rw [vecdot_csc_ptr (Comp.WFU.ptrOk ha) (Comp.WFU.idxOk ha) hm x dbg hF, if_pos hx, ← Option.some.inj e]

section
variable [CommSemiring V] [BEq V] [LawfulBEq V] [HasFma V] [IdealFma V]

omit [BEq V] [LawfulBEq V] in
theorem spmvOut_iff (dbg : Bool) (nthreads : Nat) {a : Native V} (hv : a.Valid) (hf : a.Fits) {x : List V}
    (hx : x.length = a.cols) (o : Except Fault (List V)) :
    Settles (fun N => SpmvOut dbg nthreads N a x) o ↔ o = .ok ((List.range a.rows).map fun i =>
      ((List.range a.cols).map fun j => a.val i j * x.getD j 0).sum) := by
  obtain ⟨f1, f2, f3⟩ := hf
  cases a with
  | csr a =>
    obtain ⟨y, hl, he, hr⟩ := spmv_csr_ptr_correct hv (Native.Fits.csr ⟨f1, f2, f3⟩ hv) hx dbg
    rw [eq_range_map hl he] at hr
    exact settles_iff (a.indices.length + 1) fun N hN o => hr N (by omega) o
  | csc a =>
    refine settles_returns (3 * a.data.length + 1024) (fun N hN => ?_) o
    refine (spmv_csc_ptr_correct hv (Native.Fits.csc ⟨f1, f2, f3⟩ hv) hx ?_ f3 hN).mono fun y hy => eq_range_map hy.1 hy.2
    have : 8 * ((a.nrows : Int) + 1) ≤ i64Max := f1
    omega
  | coo a =>
    refine settles_returns (3 * a.data.length + 1024) (fun N hN => ?_) o
    refine (spmv_coo_ptr_correct hv.1 hv.2 hx ?_ f3 hN).mono fun y hy => eq_range_map hy.1 hy.2
    have : 8 * ((a.nrows : Int) + 1) ≤ i64Max := f1
    omega

theorem vecdotOut_iff (dbg : Bool) (nthreads : Nat) {a : Native V} (hv : a.Valid) (hf : a.Fits) {x : List V}
    (hx : x.length = a.rows) (o : Except Fault (List V)) :
    Settles (fun N => VecdotOut dbg nthreads N a x) o ↔ o = .ok ((List.range a.cols).map fun j =>
      ((List.range a.rows).map fun i => a.val i j * x.getD i 0).sum) := by
  obtain ⟨f1, f2, f3⟩ := hf
  cases a with
  | csr a =>
    refine settles_returns 0 (fun N hN => ?_) o
    refine (vecdot_csr_ptr_correct hv (Native.Fits.csr ⟨f1, f2, f3⟩ hv) hx ?_).mono fun y hy => eq_range_map hy.1 hy.2
    have : 8 * ((a.ncols : Int) + 1) ≤ i64Max := f2
    omega
  | csc a =>
    obtain ⟨y, hl, he, hr⟩ := vecdot_csc_ptr_sum hv (Native.Fits.csc ⟨f1, f2, f3⟩ hv) hx dbg
    rw [eq_range_map hl he] at hr
    exact settles_iff (a.indices.length + 1) fun N hN o => hr N (by omega) o
  | coo a =>
    refine settles_returns (3 * a.data.length + 1024) (fun N hN => ?_) o
    refine (vecdot_coo_ptr_correct hv.1 hv.2 hx ?_ f3 hN).mono fun y hy => eq_range_map hy.1 hy.2
    have : 8 * ((a.ncols : Int) + 1) ≤ i64Max := f2
    omega

omit [BEq V] [LawfulBEq V] [HasFma V] [IdealFma V] in
theorem spmmOut_iff (dbg : Bool) {a : Native V} (hv : a.Valid) (hf : a.Fits) {b : List V} {k : Nat} (hk : 0 < k)
    (hb : b.length = a.cols * k) (hbs : 8 * (b.length : Int) ≤ i64Max) (hs : 8 * ((a.rows * k : Nat) : Int) ≤ i64Max) :
    ∃ y, IsMatProd a.rows a.cols k a.val b y ∧ ∀ o, Settles (fun N => SpmmOut dbg N a b k) o ↔ o = .ok y := by
  have hm : a.cols * k ≤ usizeMax := by rw [← hb]; exact bytes_usize hbs
  have hn : a.rows * k ≤ usizeMax := bytes_usize hs
  cases a with
  | csr a =>
    obtain ⟨y, e, hy⟩ := spmm_csr_correct hv b k hk hb hm hn
    refine ⟨y, hy, fun o => settles_iff 129 fun N hN o => ?_⟩
    show SpmmCsrPtr dbg N a b k o ↔ _
    rw [spmm_csr_ptr hv (hf.csr hv) hk hb hbs hs (by omega), e]
    simp
  | csc a =>
    obtain ⟨⟨y, e⟩, hy⟩ := spmm_csc_correct hv b k hb hm hn
    refine ⟨y, hy y e, fun o => settles_iff 129 fun N hN o => ?_⟩
    show SpmmCscPtr dbg N a b k o ↔ _
    rw [spmm_csc_ptr hv (hf.csc hv) hb hbs hs (by omega)]
    constructor
    · rintro ⟨z, h1, rfl⟩; rw [isMatProd_unique (hy z h1) (hy y e)]
    · rintro rfl; exact ⟨y, e, rfl⟩
  | coo a =>
    obtain ⟨⟨y, e⟩, hy⟩ := spmm_coo_correct hv.1 hv.2 b k hb hm hn
    refine ⟨y, hy y e, fun o => settles_iff 129 fun N hN o => ?_⟩
    show SpmmCooPtr dbg N a b k o ↔ _
    rw [spmm_coo_ptr hv.1 hv.2 hb hbs hs (by omega)]
    constructor
    · rintro ⟨z, h1, rfl⟩; rw [isMatProd_unique (hy z h1) (hy y e)]
    · rintro rfl; exact ⟨y, e, rfl⟩

end

/-! ### no undefined behaviour, any arithmetic -/

theorem settles_ne {α : Type} {P : Nat → α → Prop} {o x : α} (N₀ : Nat) (h : ∀ N, N₀ ≤ N → ∀ o, P N o → o ≠ x)
    (ho : Settles P o) : o ≠ x := by
  obtain ⟨M, hM⟩ := ho
  exact h (max M N₀) (by omega) o (hM _ (by omega))

theorem PyRes.ofKernel_ne_ub {α : Type} {o : Except Fault α} (h : o ≠ .error .ub) : PyRes.ofKernel o ≠ .ub := by
  intro hc
  cases o with
  | ok x => cases hc
  | error e => cases e with
    | ub => exact h rfl
    | panic => cases hc
    | fuel => cases hc

theorem PyRes.bind_ne_ub {α β : Type} {r : PyRes α} {f : α → PyRes β} (h : r ≠ .ub) (hf : ∀ x, f x ≠ .ub) :
    r.bind f ≠ .ub := by
  cases r with
  | ret x => exact hf x
  | raises e => intro hc; cases hc
  | ub => exact absurd rfl h
  | hang => intro hc; cases hc

theorem ofExcept_ne_ub {α : Type} (e : Except PyErr α) : PyRes.ofExcept e ≠ .ub := by
  cases e <;> (intro h; cases h)

theorem fromShapeVec_ne_ub (r k : Nat) (c : List V) : fromShapeVec r k c ≠ .ub := by
  unfold fromShapeVec; split <;> (intro h; cases h)

theorem wrapNd_ne_ub (r : CooNd V) : PyNd.wrap r ≠ .ub := by
  unfold PyNd.wrap; split
  · exact ofExcept_ne_ub _
  · intro h; cases h

end Lacuna
