import Verif.Lemmas.Construct
/-
C01–C04: checked construction accepts exactly the well-formed inputs.
-/
namespace Lacuna
universe u
variable {V : Type u}

/-- C01. `Csr::from_parts(.., check = true)` returns a matrix iff the arrays are well
formed, and then returns exactly the given arrays.  (`i64` typing of the indices is the
only hypothesis; it is automatic in Rust.) -/
theorem csr_fromParts_iff (nrows ncols : Nat) (indptr indices : List Int) (data : List V)
    (hi : ∀ j ∈ indices, j ≤ i64Max) (a : Csr V) :
    Csr.fromParts nrows ncols indptr indices data true = .ok a ↔
      nrows + 1 ≤ usizeMax ∧ a = ⟨nrows, ncols, indptr, indices, data⟩ ∧ a.WF := by
  have key := checkParts_true_ok nrows ncols indptr indices data hi
  unfold Csr.fromParts
  cases hc : checkParts nrows ncols indptr indices data true with
  | error m =>
    rw [hc] at key
    simp only [reduceCtorEq, false_iff] at key ⊢
    rintro ⟨h1, rfl, h2⟩
    exact key ⟨h1, h2⟩
  | ok u =>
    rw [hc] at key
    simp only [true_iff, Except.ok.injEq] at key ⊢
    constructor
    · rintro rfl; exact ⟨key.1, rfl, key.2⟩
    · rintro ⟨-, rfl, -⟩; rfl

example : Csr.fromParts 2 3 [0, 2, 3] [0, 2, 1] [(5 : Int), 6, 7] true
    = .ok ⟨2, 3, [0, 2, 3], [0, 2, 1], [5, 6, 7]⟩ := by rfl
example : ∀ j ∈ ([0, 2, 1] : List Int), j ≤ i64Max := by decide

/-- C02. Same for `Csc::from_parts`. -/
theorem csc_fromParts_iff (nrows ncols : Nat) (indptr indices : List Int) (data : List V)
    (hi : ∀ j ∈ indices, j ≤ i64Max) (a : Csc V) :
    Csc.fromParts nrows ncols indptr indices data true = .ok a ↔
      ncols + 1 ≤ usizeMax ∧ a = ⟨nrows, ncols, indptr, indices, data⟩ ∧ a.WF := by
  have key := checkParts_true_ok ncols nrows indptr indices data hi
  unfold Csc.fromParts
  cases hc : checkParts ncols nrows indptr indices data true with
  | error m =>
    rw [hc] at key
    simp only [reduceCtorEq, false_iff] at key ⊢
    rintro ⟨h1, rfl, h2⟩
    exact key ⟨h1, h2⟩
  | ok u =>
    rw [hc] at key
    simp only [true_iff, Except.ok.injEq] at key ⊢
    constructor
    · rintro rfl; exact ⟨key.1, rfl, key.2⟩
    · rintro ⟨-, rfl, -⟩; rfl

example : Csc.fromParts 3 2 [0, 2, 3] [0, 2, 1] [(5 : Int), 6, 7] true
    = .ok ⟨3, 2, [0, 2, 3], [0, 2, 1], [5, 6, 7]⟩ := by rfl

/-- C03. `Coo::from_parts(.., check = true)`. -/
theorem coo_fromParts_iff (nrows ncols : Nat) (row col : List Int) (data : List V) (a : Coo V) :
    Coo.fromParts nrows ncols row col data true = .ok a ↔
      a = ⟨nrows, ncols, row, col, data⟩ ∧ a.WF := by
  unfold Coo.fromParts
  split
  · rename_i h
    simp only [reduceCtorEq, false_iff]
    rintro ⟨rfl, h2⟩
    rcases h with h | h
    · exact h h2.row_length
    · exact h h2.col_length
  · rename_i h
    simp only [ne_eq, not_or, Decidable.not_not] at h
    have key := checkCooIdx_ok nrows ncols (row.zip col)
    have hwf : (∀ p ∈ row.zip col, (0 ≤ p.1 ∧ p.1 < (nrows : Int)) ∧ (0 ≤ p.2 ∧ p.2 < (ncols : Int))) ↔
        (Coo.mk nrows ncols row col data).WF := by
      constructor
      · intro hp
        refine ⟨h.1, h.2, ?_, ?_⟩
        · intro i hi
          obtain ⟨k, hk, rfl⟩ := List.getElem_of_mem hi
          simp only at hk
          have hk2 : k < col.length := by omega
          exact (hp (row[k], col[k]) (by rw [List.mem_iff_getElem]; exact ⟨k, by simp; omega, by simp⟩)).1
        · intro i hi
          obtain ⟨k, hk, rfl⟩ := List.getElem_of_mem hi
          simp only at hk
          have hk2 : k < row.length := by omega
          exact (hp (row[k], col[k]) (by rw [List.mem_iff_getElem]; exact ⟨k, by simp; omega, by simp⟩)).2
      · intro hw p hp
        exact ⟨hw.row_bounds _ (List.of_mem_zip hp).1, hw.col_bounds _ (List.of_mem_zip hp).2⟩
    rw [hwf] at key
    simp only [if_true]
    cases hc : checkCooIdx nrows ncols (row.zip col) with
    | error m =>
      rw [hc] at key
      simp only [reduceCtorEq, false_iff] at key ⊢
      rintro ⟨rfl, h2⟩; exact key h2
    | ok u =>
      rw [hc] at key
      simp only [true_iff, Except.ok.injEq] at key ⊢
      constructor
      · rintro rfl; exact ⟨rfl, key⟩
      · rintro ⟨rfl, -⟩; rfl

example : Coo.fromParts 2 2 [0, 1, 1] [1, 0, 0] [(1 : Int), 2, 3] true
    = .ok ⟨2, 2, [0, 1, 1], [1, 0, 0], [1, 2, 3]⟩ := by rfl

/-- C04. `CooNd::from_parts(.., check = true)`. -/
theorem coond_fromParts_iff (shape : List Nat) (indices : List Int) (data : List V) (a : CooNd V) :
    CooNd.fromParts shape indices data true = .ok a ↔
      data.length * shape.length ≤ usizeMax ∧ a = ⟨shape, indices, data⟩ ∧ a.WF := by
  unfold CooNd.fromParts
  split
  · rename_i h
    simp only [reduceCtorEq, false_iff]
    rintro ⟨_, rfl, h2⟩
    exact h2.rank (by simpa using h)
  rename_i hrank
  have hs : shape ≠ [] := by simpa using hrank
  split
  · rename_i h
    simp only [Bool.and_eq_true, List.isEmpty_iff, Bool.not_eq_true', List.isEmpty_eq_false_iff] at h
    simp only [reduceCtorEq, false_iff]
    rintro ⟨_, rfl, h2⟩
    have := h2.length
    simp [h.1] at this
    exact h.2 this
  unfold checkedMul
  split
  · rename_i h
    split at h
    · simp at h
    · simp only [reduceCtorEq, false_iff]; intro h'; omega
  · rename_i e h
    split at h
    · rename_i hle
      simp only [Option.some.injEq] at h
      subst h
      split
      · rename_i h
        simp only [reduceCtorEq, false_iff]
        rintro ⟨_, rfl, h2⟩
        exact h h2.length
      · rename_i hlen
        simp only [ne_eq, Decidable.not_not] at hlen
        simp only [if_true]
        have key := checkNdIdx_ok shape hs data.length indices hlen
        cases hc : checkNdIdx shape shape indices with
        | error m =>
          rw [hc] at key
          simp only [reduceCtorEq, false_iff] at key ⊢
          rintro ⟨_, rfl, h2⟩
          exact key h2.bounds
        | ok u =>
          rw [hc] at key
          simp only [true_iff, Except.ok.injEq] at key ⊢
          constructor
          · rintro rfl; exact ⟨hle, rfl, hs, hlen, key⟩
          · rintro ⟨-, rfl, -⟩; rfl
    · simp at h

example : CooNd.fromParts [2, 3] [0, 2, 1, 1] [(5 : Int), 6] true
    = .ok ⟨[2, 3], [0, 2, 1, 1], [5, 6]⟩ := by rfl

end Lacuna
