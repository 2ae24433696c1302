import Verif.Lemmas.Spmm
import Verif.Props.Spmv
import Verif.Spec.Linalg
/-
C32: products of a sparse with a dense matrix.
-/
namespace Lacuna
universe u
variable {V : Type u}

theorem mmCell_comm [Zero V] [Add V] [Mul V] (hc : ∀ x y : V, x * y = y * x) (b : List V) (k : Nat)
    (es : List (Nat × V)) (c : Nat) :
    mmCell b k es c = es.foldl (fun acc e => acc + e.2 * b.getD (e.1 * k + c) 0) 0 := by
  have : ∀ l x (y : V), laneProd l x y = x * y := by
    intro l x y
    unfold laneProd
    split
    · rw [hc]
    · rfl
  unfold mmCell
  simp only [this]

/-- A grid of cells is determined by its elements. -/
theorem isMatAcc_iff [Zero V] [Add V] [Mul V] (hc : ∀ x y : V, x * y = y * x) (n k : Nat)
    (row : Nat → List (Nat × V)) (b y : List V) :
    IsMatAcc n k row b y ↔ y = (List.range (n * k)).map fun p => mmCell b k (row (p / k)) (p % k) := by
  constructor
  · rintro ⟨h1, h2⟩
    apply ext_getD h1 (by simp)
    intro p hp
    have hk : 0 < k := by
      rcases Nat.eq_zero_or_pos k with h | h
      · subst h; simp at hp
      · exact h
    have hp' : p / k * k + p % k = p := by rw [Nat.mul_comm]; exact Nat.div_add_mod p k
    have := h2 (p / k) (p % k) (Nat.div_lt_of_lt_mul (by rwa [Nat.mul_comm])) (Nat.mod_lt _ hk)
    rw [hp'] at this
    rw [this]
    simp only [List.getD_eq_getElem?_getD, List.getElem?_map, List.getElem?_range hp, Option.map_some,
      Option.getD_some]
    rw [mmCell_comm hc]
    simp only [List.getD_eq_getElem?_getD]
  · rintro rfl
    refine ⟨by simp, fun i c hi hck => ?_⟩
    have hlt := mul_add_lt hi hck
    have h1 : (i * k + c) / k = i := by
      rw [Nat.mul_comm, Nat.mul_add_div (by omega), Nat.div_eq_of_lt hck]; omega
    have h2 : (i * k + c) % k = c := by
      rw [Nat.mul_comm, Nat.mul_add_mod, Nat.mod_eq_of_lt hck]
    rw [List.getD_eq_getElem?_getD, List.getElem?_map, List.getElem?_range hlt, Option.map_some,
      Option.getD_some, h1, h2, mmCell_comm hc]

theorem isMatAcc_unique [Zero V] [Add V] [Mul V] {n k : Nat} {row : Nat → List (Nat × V)} {b y y' : List V}
    (hc : ∀ x y : V, x * y = y * x) (h : IsMatAcc n k row b y) (h' : IsMatAcc n k row b y') : y = y' := by
  rw [isMatAcc_iff hc] at h h'
  rw [h, h']

theorem isMatAcc_congr [Zero V] [Add V] [Mul V] {n k : Nat} {row row' : Nat → List (Nat × V)} {b y : List V}
    (h : ∀ i, i < n → row i = row' i) : IsMatAcc n k row b y ↔ IsMatAcc n k row' b y := by
  unfold IsMatAcc
  refine and_congr_right fun _ => ?_
  constructor
  · intro h' i c hi hk; rw [← h i hi]; exact h' i c hi hk
  · intro h' i c hi hk; rw [h i hi]; exact h' i c hi hk

theorem foldl_acc_sum [Semiring V] {α : Type*} (f : α → V) (l : List α) :
    l.foldl (fun acc e => acc + f e) 0 = (l.map f).sum := by
  rw [← foldl_add_eq_sum, List.foldl_map]

/-! ### CSR -/

/-- The result of `spmm_f64_i64`. -/
theorem spmmCsr_eq [Zero V] [Add V] [Mul V] {a : Csr V} (ha : a.WFU) {b : List V} {k : Nat} (hk : 0 < k)
    (hb : b.length = a.ncols * k) (hm : a.ncols * k ≤ usizeMax) (hn : a.nrows * k ≤ usizeMax) :
    spmmCsr a b k = some ((List.range (a.nrows * k)).map fun p =>
      mmCell b k ((a.comp.row (p / k)).map fun e => (e.1.toNat, e.2)) (p % k)) := by
  unfold spmmCsr
  rw [wrapMul_eq hm, wrapMul_eq hn, if_neg (by simpa using hb), if_neg (by omega), chunksOf_replicate _ _ hk]
  rw [mapM_option_map (g := fun c : List V × Nat => (List.range k).map
    (mmCell b k ((a.comp.row c.2).map fun e => (e.1.toNat, e.2))))]
  · rw [Option.map_some]
    congr 1
    have : ((List.replicate a.nrows (List.replicate k (0 : V))).zipIdx).map
        (fun c : List V × Nat => (List.range k).map (mmCell b k ((a.comp.row c.2).map fun e => (e.1.toNat, e.2)))) =
        (List.range a.nrows).map fun i => (List.range k).map
          (mmCell b k ((a.comp.row i).map fun e => (e.1.toNat, e.2))) := by
      apply List.ext_getElem <;> simp
    rw [this]
    exact flatten_grid a.nrows k fun i c => mmCell b k ((a.comp.row i).map fun e => (e.1.toNat, e.2)) c
  · rintro ⟨yi, i⟩ hci
    have : yi = List.replicate k 0 := by
      have := List.fst_mem_of_mem_zipIdx hci
      exact List.eq_of_mem_replicate this
    subst this
    exact spmmRow_eq hb fun e he => ⟨(ha.row_bounds i e he).1, (ha.row_bounds i e he).2, ha.row_i64 i e he⟩

/-- C32, CSR (law-free up to commutative multiplication, hence also for IEEE arithmetic):
every element is the left-to-right accumulation over the stored entries of its row, whichever
of the two inner loops and of the SIMD and remainder parts handles it. -/
theorem spmm_csr_exact [Zero V] [Add V] [Mul V] (hc : ∀ x y : V, x * y = y * x) {a : Csr V} (ha : a.WFU)
    (b : List V) (k : Nat) (hk : 0 < k) (hb : b.length = a.ncols * k) (hm : a.ncols * k ≤ usizeMax)
    (hn : a.nrows * k ≤ usizeMax) :
    ∃ y, spmmCsr a b k = some y ∧
      IsMatAcc a.nrows k (fun i => (a.comp.row i).map fun e => (e.1.toNat, e.2)) b y :=
  ⟨_, spmmCsr_eq ha hk hb hm hn, (isMatAcc_iff hc _ _ _ _ _).2 rfl⟩

theorem isMatProd_csr [CommSemiring V] {a : Csr V} (ha : a.WFU) {b y : List V} {k : Nat}
    (h : IsMatAcc a.nrows k (fun i => (a.comp.row i).map fun e => (e.1.toNat, e.2)) b y) :
    IsMatProd a.nrows a.ncols k a.val b y := by
  refine ⟨h.1, fun i c hi hck => ?_⟩
  rw [h.2 i c hi hck, foldl_acc_sum, List.map_map]
  exact sum_line_dot (ha.row_bounds i) (fun j => b.getD (j * k + c) 0)

/-- C32, CSR: the product is `Σ_j a(i,j) b(j,c)`; columns may be unsorted or repeated. -/
theorem spmm_csr_correct [CommSemiring V] {a : Csr V} (ha : a.WFU) (b : List V) (k : Nat) (hk : 0 < k)
    (hb : b.length = a.ncols * k) (hm : a.ncols * k ≤ usizeMax) (hn : a.nrows * k ≤ usizeMax) :
    ∃ y, spmmCsr a b k = some y ∧ IsMatProd a.nrows a.ncols k a.val b y := by
  obtain ⟨y, h1, h2⟩ := spmm_csr_exact mul_comm ha b k hk hb hm hn
  exact ⟨y, h1, isMatProd_csr ha h2⟩

/-- C32: a dense matrix of the wrong size is rejected. -/
theorem spmm_rejects [Zero V] [Add V] [Mul V] (b y : List V) (k : Nat) :
    (∀ a : Csr V, a.ncols * k ≤ usizeMax → b.length ≠ a.ncols * k → spmmCsr a b k = none ∧ ¬ SpmmAutoRun a b k y) ∧
    (∀ a : Csc V, a.ncols * k ≤ usizeMax → b.length ≠ a.ncols * k → ¬ SpmmCscRun a b k y) ∧
    (∀ a : Coo V, a.ncols * k ≤ usizeMax → b.length ≠ a.ncols * k → ¬ SpmmCooRun a b k y) := by
  refine ⟨fun a hm h => ⟨?_, ?_⟩, fun a hm h => ?_, fun a hm h => ?_⟩
  · unfold spmmCsr; rw [wrapMul_eq hm, if_pos h]
  all_goals
    intro hr
    have := hr.1
    rw [wrapMul_eq hm] at this
    exact h this

/-! ### CSC -/

/-- The pairs `(column, value)` of row `i` of a CSC matrix, column after column. -/
def Csc.rowPairs (a : Csc V) (i : Nat) : List (Nat × V) :=
  (List.range a.ncols).flatMap fun j => ((a.comp.row j).filter fun e => e.1 == (i : Int)).map fun e => (j, e.2)

theorem spmmCsc_run_iff [Zero V] [Add V] [Mul V] (hc : ∀ x y : V, x * y = y * x) {a : Csc V} (ha : a.WFU)
    (b : List V) (k : Nat) (hb : b.length = a.ncols * k) (hm : a.ncols * k ≤ usizeMax)
    (hn : a.nrows * k ≤ usizeMax) (y : List V) :
    SpmmCscRun a b k y ↔ IsMatAcc a.nrows k a.rowPairs b y := by
  unfold SpmmCscRun
  rw [wrapMul_eq hm, wrapMul_eq hn, and_iff_right hb, isMatAcc_iff hc]
  split
  · rename_i h0
    have : (List.range (a.nrows * k)).map (fun p => mmCell b k (a.rowPairs (p / k)) (p % k)) =
        List.replicate (a.nrows * k) 0 := by
      rcases h0 with h | h | h
      · simp [h]
      · apply List.ext_getElem <;> simp [Csc.rowPairs, h, mmCell]
      · simp [h]
    rw [this]
  · rw [tilesRun_iff hb]
    · have : ∀ p, (((List.range a.ncols).flatMap fun j => (a.comp.row j).map fun e => (j, i64ToUsize e.1, e.2)).filter
          fun e => e.2.1 == p / k).map (fun e => (e.1, e.2.2)) = a.rowPairs (p / k) := by
        intro p
        unfold Csc.rowPairs
        rw [List.filter_flatMap, List.map_flatMap]
        congr 1
        funext j
        rw [List.filter_map, List.map_map]
        have hf : (a.comp.row j).filter ((fun e : Nat × Nat × V => e.2.1 == p / k) ∘ fun e => (j, i64ToUsize e.1, e.2)) =
            (a.comp.row j).filter fun e => e.1 == ((p / k : Nat) : Int) := by
          apply List.filter_congr
          intro e he
          simp only [Function.comp]
          rw [i64ToUsize_of_nonneg (ha.row_bounds j e he).1 (ha.row_i64 j e he), toNat_eq_iff (ha.row_bounds j e he).1]
        rw [hf]
        rfl
      simp only [this]
    · intro e he
      obtain ⟨j, hj, he⟩ := List.mem_flatMap.1 he
      obtain ⟨e', he', rfl⟩ := List.mem_map.1 he
      have hb' := ha.row_bounds j e' he'
      refine ⟨List.mem_range.1 hj, ?_⟩
      show i64ToUsize e'.1 < a.nrows
      rw [i64ToUsize_of_nonneg hb'.1 (ha.row_i64 j e' he')]
      have : e'.1 < a.nrows := hb'.2
      omega

/-- C32, CSC (law-free up to commutative multiplication): for every interleaving of the tiles
the result is the same, namely the accumulation of each row's entries by ascending column. -/
theorem spmm_csc_exact [Zero V] [Add V] [Mul V] (hc : ∀ x y : V, x * y = y * x) {a : Csc V} (ha : a.WFU)
    (b : List V) (k : Nat) (hb : b.length = a.ncols * k) (hm : a.ncols * k ≤ usizeMax)
    (hn : a.nrows * k ≤ usizeMax) :
    (∃ y, SpmmCscRun a b k y) ∧ ∀ y, SpmmCscRun a b k y → IsMatAcc a.nrows k a.rowPairs b y :=
  ⟨⟨_, (spmmCsc_run_iff hc ha b k hb hm hn _).2 ((isMatAcc_iff hc _ _ _ _ _).2 rfl)⟩,
    fun y hy => (spmmCsc_run_iff hc ha b k hb hm hn y).1 hy⟩

/-- C32, CSC: the product is `Σ_j a(i,j) b(j,c)`. -/
theorem spmm_csc_correct [CommSemiring V] {a : Csc V} (ha : a.WFU) (b : List V) (k : Nat)
    (hb : b.length = a.ncols * k) (hm : a.ncols * k ≤ usizeMax) (hn : a.nrows * k ≤ usizeMax) :
    (∃ y, SpmmCscRun a b k y) ∧ ∀ y, SpmmCscRun a b k y → IsMatProd a.nrows a.ncols k a.val b y := by
  obtain ⟨h1, h2⟩ := spmm_csc_exact mul_comm ha b k hb hm hn
  refine ⟨h1, fun y hy => ?_⟩
  have h := h2 y hy
  refine ⟨h.1, fun i c hi hck => ?_⟩
  rw [h.2 i c hi hck, foldl_acc_sum]
  unfold Csc.rowPairs
  rw [List.flatMap_def, List.map_flatten, List.sum_flatten, List.map_map, List.map_map]
  congr 1
  apply List.map_congr_left
  intro j _
  simp only [Function.comp]
  rw [List.map_map]
  show ((((a.comp.row j).filter fun e => e.1 == (i : Int)).map fun e => e.2 * b.getD (j * k + c) 0)).sum = _
  rw [List.sum_map_mul_right]
  rfl

/-! ### COO -/

/-- The pairs `(column, value)` of row `i` of a COO matrix in storage order. -/
def Coo.rowPairs (a : Coo V) (i : Nat) : List (Nat × V) :=
  (a.triples.filter fun t => t.1.1 == (i : Int)).map fun t => (t.1.2.toNat, t.2)

theorem spmmCoo_run_iff [Zero V] [Add V] [Mul V] (hc : ∀ x y : V, x * y = y * x) {a : Coo V} (ha : a.WF)
    (hi : a.I64) (b : List V) (k : Nat) (hb : b.length = a.ncols * k) (hm : a.ncols * k ≤ usizeMax)
    (hn : a.nrows * k ≤ usizeMax) (y : List V) :
    SpmmCooRun a b k y ↔ IsMatAcc a.nrows k a.rowPairs b y := by
  unfold SpmmCooRun
  rw [wrapMul_eq hm, wrapMul_eq hn, and_iff_right hb, isMatAcc_iff hc]
  split
  · rename_i h0
    have : (List.range (a.nrows * k)).map (fun p => mmCell b k (a.rowPairs (p / k)) (p % k)) =
        List.replicate (a.nrows * k) 0 := by
      rcases h0 with h | h | h
      · simp [h]
      · simp [h]
      · have h0 : a.triples = [] := by
          rw [← List.length_eq_zero_iff, ha.triples_length]; exact h
        apply List.ext_getElem <;> simp [Coo.rowPairs, h0, mmCell]
    rw [this]
  · rw [tilesRun_iff hb]
    · have : ∀ p, ((a.triples.map fun t => (i64ToUsize t.1.2, i64ToUsize t.1.1, t.2)).filter
          fun e => e.2.1 == p / k).map (fun e => (e.1, e.2.2)) = a.rowPairs (p / k) := by
        intro p
        unfold Coo.rowPairs
        rw [List.filter_map, List.map_map]
        have hf : a.triples.filter ((fun e : Nat × Nat × V => e.2.1 == p / k) ∘
            fun t => (i64ToUsize t.1.2, i64ToUsize t.1.1, t.2)) =
            a.triples.filter fun t => t.1.1 == ((p / k : Nat) : Int) := by
          apply List.filter_congr
          intro t ht
          simp only [Function.comp]
          rw [i64ToUsize_of_nonneg (ha.triple_bounds t ht).1.1 (hi.triple t ht).1,
            toNat_eq_iff (ha.triple_bounds t ht).1.1]
        rw [hf]
        apply List.map_congr_left
        intro t ht
        have ht := (List.mem_filter.1 ht).1
        simp only [Function.comp]
        rw [i64ToUsize_of_nonneg (ha.triple_bounds t ht).2.1 (hi.triple t ht).2]
      simp only [this]
    · intro e he
      obtain ⟨t, ht, rfl⟩ := List.mem_map.1 he
      have hb' := ha.triple_bounds t ht
      refine ⟨?_, ?_⟩
      · show i64ToUsize t.1.2 < a.ncols
        rw [i64ToUsize_of_nonneg hb'.2.1 (hi.triple t ht).2]
        omega
      · show i64ToUsize t.1.1 < a.nrows
        rw [i64ToUsize_of_nonneg hb'.1.1 (hi.triple t ht).1]
        omega

/-- C32, COO (law-free up to commutative multiplication): for every interleaving of the tiles
the result is the same, the accumulation of each row's entries in storage order. -/
theorem spmm_coo_exact [Zero V] [Add V] [Mul V] (hc : ∀ x y : V, x * y = y * x) {a : Coo V} (ha : a.WF)
    (hi : a.I64) (b : List V) (k : Nat) (hb : b.length = a.ncols * k) (hm : a.ncols * k ≤ usizeMax)
    (hn : a.nrows * k ≤ usizeMax) :
    (∃ y, SpmmCooRun a b k y) ∧ ∀ y, SpmmCooRun a b k y → IsMatAcc a.nrows k a.rowPairs b y :=
  ⟨⟨_, (spmmCoo_run_iff hc ha hi b k hb hm hn _).2 ((isMatAcc_iff hc _ _ _ _ _).2 rfl)⟩,
    fun y hy => (spmmCoo_run_iff hc ha hi b k hb hm hn y).1 hy⟩

/-- C32, COO: the product is `Σ_j a(i,j) b(j,c)`; repeated coordinates add up. -/
theorem spmm_coo_correct [CommSemiring V] {a : Coo V} (ha : a.WF) (hi : a.I64) (b : List V) (k : Nat)
    (hb : b.length = a.ncols * k) (hm : a.ncols * k ≤ usizeMax) (hn : a.nrows * k ≤ usizeMax) :
    (∃ y, SpmmCooRun a b k y) ∧ ∀ y, SpmmCooRun a b k y → IsMatProd a.nrows a.ncols k a.val b y := by
  obtain ⟨h1, h2⟩ := spmm_coo_exact mul_comm ha hi b k hb hm hn
  refine ⟨h1, fun y hy => ?_⟩
  have h := h2 y hy
  refine ⟨h.1, fun i c hi' hck => ?_⟩
  rw [h.2 i c hi' hck, foldl_acc_sum, ← ksum_cooOps ha (fun j => b.getD (j * k + c) 0) i]
  unfold ksum Coo.rowPairs
  rw [filter_map_triples _ _ (fun t ht => (ha.triple_bounds t ht).1.1), List.map_map]
  rfl

/-! ### Automatic choice of the format -/

theorem row_nil_of_empty {a : Csr V} (ha : a.WFU) {i : Nat} (hi : i < a.nrows)
    (h0 : a.ncols = 0 ∨ a.data.length = 0) : a.comp.row i = [] := by
  rw [List.eq_nil_iff_forall_not_mem]
  intro e he
  rcases h0 with h | h
  · have := ha.row_bounds i e he
    have h' : a.comp.m = 0 := h
    omega
  · have h' : a.comp.data.length = 0 := h
    have hl := ha.data_length
    have := ha.ptr_le (i := i + 1) (by exact hi)
    have hr := ha.row_length (i := i) (by exact hi)
    have : (a.comp.row i).length = 0 := by omega
    rw [List.length_eq_zero_iff] at this
    rw [this] at he
    cases he

/-- Collecting the entries of a sorted line column by column gives the line back. -/
theorem sorted_flatMap {row : List (Int × V)} (hs : Srt row) (hb : ∀ e ∈ row, 0 ≤ e.1) (m : Nat) :
    ((List.range m).flatMap fun (j : Nat) => row.filter fun e => e.1 == (j : Int)) =
      row.filter fun e => decide (e.1 < (m : Int)) := by
  induction m with
  | zero =>
    simp only [List.range_zero, List.flatMap_nil]
    symm
    rw [List.filter_eq_nil_iff]
    intro e he
    have := hb e he
    simp; omega
  | succ m ih =>
    rw [List.range_succ, List.flatMap_append, ih, List.flatMap_singleton]
    clear ih
    induction row with
    | nil => rfl
    | cons e row ih' =>
      obtain ⟨k, x⟩ := e
      obtain ⟨h1, h2⟩ := srt_cons.1 hs
      have ih'' := ih' h2 (fun e he => hb e (by simp [he]))
      by_cases hlt : k < (m : Int)
      · rw [List.filter_cons_of_pos (by simpa using hlt), List.filter_cons_of_neg (by simp; omega),
          List.filter_cons_of_pos (by simp; omega), List.cons_append, ih'']
      · rw [List.filter_cons_of_neg (by simpa using hlt)]
        have hnil : row.filter (fun e => decide (e.1 < (m : Int))) = [] := by
          rw [List.filter_eq_nil_iff]
          intro e he
          have := h1 e he
          simp; omega
        rw [hnil] at ih'' ⊢
        rw [List.nil_append] at ih'' ⊢
        by_cases heq : k = (m : Int)
        · rw [List.filter_cons_of_pos (by simpa using heq), List.filter_cons_of_pos (by simp; omega), ih'']
        · rw [List.filter_cons_of_neg (by simpa using heq), List.filter_cons_of_neg (by simp; omega), ih'']

theorem flatMap_pairs (m : Nat) (row : List (Int × V)) :
    ((List.range m).flatMap fun (j : Nat) => (row.filter fun e => e.1 == (j : Int)).map fun e => (j, e.2)) =
      ((List.range m).flatMap fun (j : Nat) => row.filter fun e => e.1 == (j : Int)).map fun e => (e.1.toNat, e.2) := by
  rw [List.map_flatMap]
  congr 1
  funext j
  apply List.map_congr_left
  intro e he
  have : e.1 = (j : Int) := by simpa using (List.mem_filter.1 he).2
  rw [this]
  simp

/-- After CSR → CSC under any schedule, row `i` read by ascending column is the sorted CSR
row. -/
theorem csc_rowPairs [Zero V] {a : Csr V} (ha : a.WF) (hf : a.comp.Fits) {c : Csc V} (h : CsrToCscRun a c)
    (i : Nat) : c.rowPairs i = (a.comp.row i).map fun e => (e.1.toNat, e.2) := by
  obtain ⟨sched, hs, e⟩ := atomicFill_eq (Comp.WF.wfu ha) hf h
  have hcols : c.ncols = a.ncols := (congrArg Comp.n e).trans (by simp [tcomp, Comp.ofRows, Csr.comp])
  unfold Csc.rowPairs
  rw [hcols, e]
  have : ∀ j, (((tcomp a.comp sched).row j).filter fun e => e.1 == (i : Int)).map (fun e => (j, e.2)) =
      ((a.comp.row i).filter fun e => e.1 == (j : Int)).map fun e => (j, e.2) := by
    intro j
    have := tcomp_filter (Comp.WF.wfu ha) hs hf i j
    have h2 := congrArg (List.map fun v => (j, v)) this
    rw [List.map_map, List.map_map] at h2
    exact h2
  simp only [this]
  rw [flatMap_pairs, sorted_flatMap (srt_row ha i) (fun e he => ((Comp.WF.wfu ha).row_bounds i e he).1)]
  congr 1
  rw [List.filter_eq_self]
  intro e he
  have : e.1 < (a.ncols : Int) := ((Comp.WF.wfu ha).row_bounds i e he).2
  simpa using this

/-- C32: for a well-formed matrix the automatic dispatch returns exactly what the general
kernel returns, bit for bit if the multiplication commutes, whatever the schedules of the
conversion and of the tiles. -/
theorem spmm_auto_eq_csr [Zero V] [Add V] [Mul V] (hc : ∀ x y : V, x * y = y * x) {a : Csr V} (ha : a.WF)
    (hf : a.comp.Fits) (b : List V) (k : Nat) (hk : 0 < k) (hb : b.length = a.ncols * k)
    (hm : a.ncols * k ≤ usizeMax) (hn : a.nrows * k ≤ usizeMax) (y : List V) :
    SpmmAutoRun a b k y ↔ spmmCsr a b k = some y := by
  have hw := Comp.WF.wfu ha
  obtain ⟨y0, h1, h2⟩ := spmm_csr_exact hc hw b k hk hb hm hn
  rw [h1]
  unfold SpmmAutoRun
  rw [wrapMul_eq hm, wrapMul_eq hn, and_iff_right hb]
  split
  · rename_i h0
    have : y0 = List.replicate (a.nrows * k) 0 := by
      refine isMatAcc_unique hc h2 ⟨by simp, fun i c hi hck => ?_⟩
      rw [replicate_getD_zero]
      have hrow : a.comp.row i = [] := by
        exact row_nil_of_empty hw hi (by omega)
      simp only [hrow]
      rfl
    rw [this]
    constructor
    · rintro rfl; rfl
    · intro h; exact (Option.some.inj h).symm
  · split
    · constructor
      · rintro ⟨c, hcr, hy⟩
        obtain ⟨g1, g2, -, g4, -, -⟩ := csr_to_csc_correct hw hf hcr
        have := (spmmCsc_run_iff hc g4 b k (by rw [g2]; exact hb) (by rw [g2]; exact hm) (by rw [g1]; exact hn) y).1 hy
        rw [g1, isMatAcc_congr (fun i _ => csc_rowPairs ha hf hcr i)] at this
        rw [isMatAcc_unique hc h2 this]
      · intro h
        obtain rfl := Option.some.inj h
        have hcr : CsrToCscRun a (tcomp a.comp a.comp.events).toCsc :=
          atomicFill_of hw hf (interleaving_events _)
        obtain ⟨g1, g2, -, g4, -, -⟩ := csr_to_csc_correct hw hf hcr
        refine ⟨_, hcr, ?_⟩
        rw [spmmCsc_run_iff hc g4 b k (by rw [g2]; exact hb) (by rw [g2]; exact hm) (by rw [g1]; exact hn), g1,
          isMatAcc_congr (fun i _ => csc_rowPairs ha hf hcr i)]
        exact h2
    · exact h1 ▸ Iff.rfl

/-- C32: the automatic dispatch gives `Σ_j a(i,j) b(j,c)` (`k = 0` allowed). -/
theorem spmm_auto_correct [CommSemiring V] {a : Csr V} (ha : a.WFU) (hf : a.comp.Fits) (b : List V) (k : Nat)
    (hb : b.length = a.ncols * k) (hm : a.ncols * k ≤ usizeMax) (hn : a.nrows * k ≤ usizeMax) :
    (∃ y, SpmmAutoRun a b k y) ∧ ∀ y, SpmmAutoRun a b k y → IsMatProd a.nrows a.ncols k a.val b y := by
  unfold SpmmAutoRun
  rw [wrapMul_eq hm, wrapMul_eq hn]
  simp only [hb, true_and]
  split
  · rename_i h0
    refine ⟨⟨_, rfl⟩, ?_⟩
    rintro y rfl
    refine ⟨by simp, fun i c hi hck => ?_⟩
    rw [replicate_getD_zero]
    have hv : ∀ j, a.val i j = 0 := by
      intro j
      have hrow : a.comp.row i = [] := by
        exact row_nil_of_empty ha hi (by omega)
      show (((a.comp.row i).filter _).map _).sum = 0
      rw [hrow]; rfl
    simp [hv]
  · rename_i h0
    split
    · constructor
      · have hcr : CsrToCscRun a (tcomp a.comp a.comp.events).toCsc :=
          atomicFill_of ha hf (interleaving_events _)
        obtain ⟨g1, g2, -, g4, -, -⟩ := csr_to_csc_correct ha hf hcr
        obtain ⟨⟨y, hy⟩, -⟩ := spmm_csc_correct g4 b k (by rw [g2]; exact hb) (by rw [g2]; exact hm) (by rw [g1]; exact hn)
        exact ⟨y, _, hcr, hy⟩
      · rintro y ⟨c, hcr, hy⟩
        obtain ⟨g1, g2, -, g4, -, g6⟩ := csr_to_csc_correct ha hf hcr
        obtain ⟨-, h⟩ := spmm_csc_correct g4 b k (by rw [g2]; exact hb) (by rw [g2]; exact hm) (by rw [g1]; exact hn)
        have := h y hy
        unfold IsMatProd at this ⊢
        simp only [g1, g2, g6] at this
        exact this
    · obtain ⟨y, h1, h2⟩ := spmm_csr_correct ha b k (by omega) hb hm hn
      refine ⟨⟨y, h1⟩, fun y' hy' => ?_⟩
      rw [h1] at hy'
      obtain rfl := Option.some.inj hy'
      exact h2

/-- C32: the three 2-D formats agree on equal matrices. -/
theorem spmm_formats_agree [CommSemiring V] {a : Csr V} {c : Csc V} {o : Coo V} (ha : a.WFU) (hc : c.WFU)
    (ho : o.WF) (hoi : o.I64) {n m k : Nat} (h1 : a.nrows = n ∧ a.ncols = m) (h2 : c.nrows = n ∧ c.ncols = m)
    (h3 : o.nrows = n ∧ o.ncols = m) (hv : ∀ i j, i < n → j < m → a.val i j = c.val i j ∧ a.val i j = o.val i j)
    (b : List V) (hk : 0 < k) (hb : b.length = m * k) (hm : m * k ≤ usizeMax) (hn : n * k ≤ usizeMax)
    (yc yo : List V) (hyc : SpmmCscRun c b k yc) (hyo : SpmmCooRun o b k yo) :
    spmmCsr a b k = some yc ∧ yc = yo := by
  obtain ⟨rfl, rfl⟩ := h1
  obtain ⟨y, g1, g2⟩ := spmm_csr_correct ha b k hk hb hm hn
  have g3 := (spmm_csc_correct hc b k (by rw [h2.2]; exact hb) (by rw [h2.2]; exact hm) (by rw [h2.1]; exact hn)).2 yc hyc
  have g4 := (spmm_coo_correct ho hoi b k (by rw [h3.2]; exact hb) (by rw [h3.2]; exact hm) (by rw [h3.1]; exact hn)).2 yo hyo
  rw [h2.1, h2.2] at g3
  rw [h3.1, h3.2] at g4
  have key : ∀ z (val : Nat → Nat → V), IsMatProd a.nrows a.ncols k val b z →
      (∀ i j, i < a.nrows → j < a.ncols → a.val i j = val i j) → z = y := by
    intro z val hz hval
    apply ext_getD hz.1 g2.1
    intro p hp
    have hp' : p / k * k + p % k = p := by rw [Nat.mul_comm]; exact Nat.div_add_mod p k
    have hi : p / k < a.nrows := Nat.div_lt_of_lt_mul (by rwa [Nat.mul_comm])
    have e1 := hz.2 (p / k) (p % k) hi (Nat.mod_lt _ hk)
    have e2 := g2.2 (p / k) (p % k) hi (Nat.mod_lt _ hk)
    rw [hp'] at e1 e2
    rw [e1, e2]
    congr 1
    apply List.map_congr_left
    intro j hj
    rw [hval _ _ hi (List.mem_range.1 hj)]
  have e1 := key yc c.val g3 (fun i j hi hj => (hv i j hi hj).1)
  have e2 := key yo o.val g4 (fun i j hi hj => (hv i j hi hj).2)
  exact ⟨by rw [g1, e1], by rw [e1, e2]⟩

end Lacuna
