import Verif.Model.Matmul
import Verif.Spec.Matmul
import Verif.Lemmas.Cumulative
import Verif.Lemmas.NdLin
import Verif.Props.Tensordot
/-
C44: the batched matrix product.
-/
namespace Lacuna
universe u
variable {V : Type u}

theorem swap01_length [Zero V] (d0 d1 d2 : Nat) (l : List V) : (swap01 d0 d1 d2 l).length = d1 * (d0 * d2) := by
  unfold swap01; rw [List.length_map, List.length_range, Nat.mul_assoc]

theorem swap01_getD [Zero V] {d0 d1 d2 : Nat} (l : List V) {b k c : Nat} (hb : b < d0) (hk : k < d1) (hc : c < d2) :
    (swap01 d0 d1 d2 l).getD ((k * d0 + b) * d2 + c) 0 = l.getD ((b * d1 + k) * d2 + c) 0 := by
  unfold swap01
  have := getD_grid (d1 * d0) d2 (fun q c => l.getD ((q % d0 * d1 + q / d0) * d2 + c) 0) (mul_add_lt hk hb) hc
  rw [this]
  rw [Nat.mul_comm k d0, Nat.mul_add_mod, Nat.mul_add_div (by omega), Nat.mod_eq_of_lt hb, Nat.div_eq_of_lt hb,
    Nat.add_zero]

theorem rowMajor_append {s : List Nat} {x : List Int} (h : InBounds s x) (s' : List Nat) (x' : List Int) :
    rowMajor (s ++ s') (x ++ x') = rowMajor s x * s'.prod + rowMajor s' x' := by
  unfold InBounds at h
  induction h with
  | nil => simp [rowMajor]
  | cons hd _ ih =>
    simp only [List.cons_append, rowMajor, ih, List.prod_append]
    rw [Nat.add_mul, Nat.mul_assoc, Nat.add_assoc]

theorem rowMajor_pair {batch : List Nat} {z : List Int} (h : InBounds batch z) (k n j c : Nat) :
    rowMajor (batch ++ [k, n]) (z ++ [(j : Int), (c : Int)]) = (rowMajor batch z * k + j) * n + c := by
  rw [rowMajor_append h]
  simp [rowMajor, Nat.add_mul, Nat.mul_assoc, Nat.add_assoc]

/-- The reshaping is right whatever computes the two-dimensional product. -/
theorem matmul_of_product [Semiring V] {prod : List V → Nat → List V → Prop} {m k : Nat} {batch : List Nat} {n : Nat}
    {val : Nat → Nat → V} {y : List V}
    (hp : ∀ b y', b.length = k * (batch.prod * n) → prod b (batch.prod * n) y' → IsMatProd m k (batch.prod * n) val b y')
    {out : List V} (h : MatmulRun prod m k batch k n y out) : IsBatchProd batch m k n val y out := by
  obtain ⟨-, out2, h2, rfl⟩ := h
  have hm := hp _ _ (swap01_length _ _ _ _) h2
  refine ⟨?_, ?_⟩
  · rw [swap01_length, List.prod_append]; simp
  · intro z i c hz hi hc
    have hb := rowMajor_lt hz
    rw [rowMajor_pair hz, swap01_getD out2 hi hb hc]
    have := hm.2 i (rowMajor batch z * n + c) hi (mul_add_lt hb hc)
    rw [show i * (batch.prod * n) + (rowMajor batch z * n + c) = (i * batch.prod + rowMajor batch z) * n + c by
      rw [Nat.add_mul, Nat.mul_assoc, Nat.add_assoc]] at this
    rw [this]
    congr 1
    apply List.map_congr_left
    intro j hj
    have hj : j < k := by simpa using hj
    rw [rowMajor_pair hz, show j * (batch.prod * n) + (rowMajor batch z * n + c) = (j * batch.prod + rowMajor batch z) * n + c by
      rw [Nat.add_mul, Nat.mul_assoc, Nat.add_assoc], swap01_getD y hb hj hc]

/-- Any wrong inner dimension is rejected. -/
theorem matmul_rejects [Zero V] {prod : List V → Nat → List V → Prop} {m cols : Nat} {batch : List Nat} {k n : Nat}
    {y out : List V} (hk : k ≠ cols) : ¬ MatmulRun prod m cols batch k n y out := fun h => hk h.1

theorem matmul_exists [Zero V] {prod : List V → Nat → List V → Prop} {m k : Nat} {batch : List Nat} {n : Nat} {y : List V}
    (hp : ∃ y', prod (swap01 batch.prod k n y) (batch.prod * n) y') : ∃ out, MatmulRun prod m k batch k n y out := by
  obtain ⟨o, ho⟩ := hp
  exact ⟨_, rfl, o, ho, rfl⟩

/-- CSR (the batch and the result must not be empty along `batch` and `n`). -/
theorem matmul_csr_correct [CommSemiring V] {a : Csr V} (ha : a.WFU) (batch : List Nat) (n : Nat) (y : List V)
    (h0 : 0 < batch.prod * n) (hm : a.ncols * (batch.prod * n) ≤ usizeMax) (hn : a.nrows * (batch.prod * n) ≤ usizeMax) :
    (∃ out, MatmulRun (fun b k y => spmmCsr a b k = some y) a.nrows a.ncols batch a.ncols n y out) ∧
    ∀ out, MatmulRun (fun b k y => spmmCsr a b k = some y) a.nrows a.ncols batch a.ncols n y out →
      IsBatchProd batch a.nrows a.ncols n a.val y out := by
  refine ⟨matmul_exists ?_, fun out h => matmul_of_product ?_ h⟩
  · obtain ⟨y', h1, -⟩ := spmm_csr_correct ha (swap01 batch.prod a.ncols n y) _ h0 (swap01_length _ _ _ _) hm hn
    exact ⟨y', h1⟩
  · intro b y' hb hy
    obtain ⟨y'', h1, h2⟩ := spmm_csr_correct ha b _ h0 hb hm hn
    rw [h1] at hy
    exact Option.some.inj hy ▸ h2

/-- CSC, every schedule. -/
theorem matmul_csc_correct [CommSemiring V] {a : Csc V} (ha : a.WFU) (batch : List Nat) (n : Nat) (y : List V)
    (hm : a.ncols * (batch.prod * n) ≤ usizeMax) (hn : a.nrows * (batch.prod * n) ≤ usizeMax) :
    (∃ out, MatmulRun (SpmmCscRun a) a.nrows a.ncols batch a.ncols n y out) ∧
    ∀ out, MatmulRun (SpmmCscRun a) a.nrows a.ncols batch a.ncols n y out →
      IsBatchProd batch a.nrows a.ncols n a.val y out :=
  ⟨matmul_exists (spmm_csc_correct ha _ _ (swap01_length _ _ _ _) hm hn).1,
    fun _ h => matmul_of_product (fun b y' hb hy => (spmm_csc_correct ha b _ hb hm hn).2 y' hy) h⟩

/-- COO, every schedule. -/
theorem matmul_coo_correct [CommSemiring V] {a : Coo V} (ha : a.WF) (hi : a.I64) (batch : List Nat) (n : Nat) (y : List V)
    (hm : a.ncols * (batch.prod * n) ≤ usizeMax) (hn : a.nrows * (batch.prod * n) ≤ usizeMax) :
    (∃ out, MatmulRun (SpmmCooRun a) a.nrows a.ncols batch a.ncols n y out) ∧
    ∀ out, MatmulRun (SpmmCooRun a) a.nrows a.ncols batch a.ncols n y out →
      IsBatchProd batch a.nrows a.ncols n a.val y out :=
  ⟨matmul_exists (spmm_coo_correct ha hi _ _ (swap01_length _ _ _ _) hm hn).1,
    fun _ h => matmul_of_product (fun b y' hb hy => (spmm_coo_correct ha hi b _ hb hm hn).2 y' hy) h⟩

/-- Negative part: for an empty batch (or `n = 0`) the CSR product panics, while CSC and COO return
the empty array. -/
theorem matmul_csr_empty_panics [CommSemiring V] (a : Csr V) (batch : List Nat) (n : Nat) (y out : List V)
    (h0 : batch.prod * n = 0) :
    ¬ MatmulRun (fun b k y => spmmCsr a b k = some y) a.nrows a.ncols batch a.ncols n y out := by
  rintro ⟨-, out2, h, -⟩
  have hl : (swap01 batch.prod a.ncols n y).length = 0 := by rw [swap01_length, h0, Nat.mul_zero]
  rw [List.eq_nil_of_length_eq_zero hl, h0, (spmm_csr_no_columns_panics a).1] at h
  exact absurd h (by simp)

/-! ### Witnesses -/

/-- Shape (2, 3, 1) to (3, 2, 1). -/
example : swap01 2 3 1 [10, 11, 12, 20, 21, 22] = [(10 : Int), 20, 11, 21, 12, 22] := by decide
example : exA.WFU ∧ 0 < ([2] : List Nat).prod * 1 ∧ exA.ncols * (([2] : List Nat).prod * 1) ≤ usizeMax ∧
    exA.nrows * (([2] : List Nat).prod * 1) ≤ usizeMax ∧
    ∃ out, MatmulRun (fun b k y => spmmCsr exA b k = some y) exA.nrows exA.ncols [2] exA.ncols 1 [10, 11, 12, 20, 21, 22] out ∧
      out.getD 3 0 = 7 * 21 := by
  refine ⟨Comp.WF.wfu exA_wf, by decide, by decide, by decide, ?_⟩
  obtain ⟨⟨out, h1⟩, h2⟩ := matmul_csr_correct (Comp.WF.wfu exA_wf) [2] 1 [10, 11, 12, 20, 21, 22]
    (by decide) (by decide) (by decide)
  refine ⟨out, h1, ?_⟩
  exact (h2 out h1).2 [1] 1 0 (.cons (by decide) .nil) (by decide) (by decide)
example : exC.WFU ∧ exC.ncols * (([2, 2] : List Nat).prod * 3) ≤ usizeMax ∧
    exC.nrows * (([2, 2] : List Nat).prod * 3) ≤ usizeMax := ⟨Comp.WF.wfu exC_wf, by decide, by decide⟩
example : exDup.WF ∧ exDup.I64 ∧ exDup.ncols * (([2, 2] : List Nat).prod * 3) ≤ usizeMax ∧
    exDup.nrows * (([2, 2] : List Nat).prod * 3) ≤ usizeMax :=
  ⟨exDup_wf, ⟨by decide, by decide⟩, by decide, by decide⟩

end Lacuna
