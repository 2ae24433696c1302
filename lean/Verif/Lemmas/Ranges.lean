import Verif.Model.Spmv
import Mathlib.Algebra.BigOperators.Group.List.Basic
/-
The splitter of lines into work ranges.
-/
namespace Lacuna
universe u

/-- Number of entries of the lines `lo, …, hi - 1`. -/
def weight (w : Nat → Nat) (lo hi : Nat) : Nat := ((List.range' lo (hi - lo)).map w).sum

theorem weight_self (w : Nat → Nat) (i : Nat) : weight w i i = 0 := by simp [weight]

theorem weight_succ (w : Nat → Nat) {lo hi : Nat} (h : lo ≤ hi) :
    weight w lo (hi + 1) = weight w lo hi + w hi := by
  unfold weight
  rw [show hi + 1 - lo = (hi - lo) + 1 from by omega, List.range'_concat, List.map_append,
    List.sum_append]
  simp [show lo + (hi - lo) = hi from by omega]

/-- Invariant of the splitter: `acc` is the weight of the open range `r0..i`. -/
structure ScanInv (w : Nat → Nat) (target i acc r0 : Nat) : Prop where
  acc_eq : acc = if acc = 0 then 0 else weight w r0 i
  lt : 0 < acc → r0 < i
  small : 0 < acc → acc < target

/-- Everything about the output of the splitter, for an arbitrary state of the loop.
`start` is where the open range begins. -/
structure ScanOut (w : Nat → Nat) (target start i stop : Nat) (R : List (Nat × Nat)) : Prop where
  bounds : ∀ r ∈ R, start ≤ r.1 ∧ r.1 < r.2 ∧ i ≤ r.2 ∧ r.2 ≤ stop
  disjoint : R.Pairwise fun p q => p.2 ≤ q.1
  heavy : ∀ r ∈ R.dropLast, target ≤ weight w r.1 r.2
  nonempty : ∀ r ∈ R, 0 < weight w r.1 r.2
  light : ∀ r ∈ R, weight w r.1 (r.2 - 1) < target

theorem rangeScan_out (w : Nat → Nat) (target : Nat) (ht : 0 < target) (k : Nat) :
    ∀ i acc r0, ScanInv w target i acc r0 →
      ScanOut w target (if acc = 0 then i else r0) i (i + k)
        (rangeScan target i acc r0 ((List.range' i k).map w)) := by
  induction k with
  | zero =>
    intro i acc r0 h
    show ScanOut w target _ i (i + 0) (if acc > 0 then [(r0, i)] else [])
    by_cases hacc : acc = 0
    · subst hacc
      exact ⟨by simp, by simp, by simp, by simp, by simp⟩
    · have hpos : acc > 0 := by omega
      have hlt := h.lt hpos
      have hw := h.acc_eq
      rw [if_neg hacc] at hw
      rw [if_pos hpos, if_neg hacc]
      refine ⟨?_, by simp, by simp, ?_, ?_⟩
      · simp; omega
      · simp; omega
      · simp only [List.mem_singleton, forall_eq]
        have hs := h.small hpos
        have : weight w r0 i = weight w r0 (i - 1) + w (i - 1) := by
          have := weight_succ w (lo := r0) (hi := i - 1) (by omega)
          rwa [show i - 1 + 1 = i from by omega] at this
        omega
  | succ k ih =>
    intro i acc r0 h
    rw [List.range'_succ, List.map_cons]
    show ScanOut w target _ i _ (let r0' := if acc = 0 then i else r0
      let acc' := acc + w i
      if acc' ≥ target then (r0', i + 1) :: rangeScan target (i + 1) 0 r0' ((List.range' (i + 1) k).map w)
      else rangeScan target (i + 1) acc' r0' ((List.range' (i + 1) k).map w))
    generalize hr0 : (if acc = 0 then i else r0) = r0'
    have hle : r0' ≤ i := by
      rw [← hr0]; split
      · exact Nat.le_refl _
      · have := h.lt (by omega); omega
    have hw0 : weight w r0' i = acc := by
      by_cases hacc : acc = 0
      · rw [if_pos hacc] at hr0; subst hr0; rw [weight_self, hacc]
      · rw [if_neg hacc] at hr0; subst hr0
        have := h.acc_eq; rw [if_neg hacc] at this; exact this.symm
    have hw1 : weight w r0' (i + 1) = acc + w i := by rw [weight_succ w hle, hw0]
    show ScanOut w target r0' i _ (if acc + w i ≥ target then (r0', i + 1) ::
        rangeScan target (i + 1) 0 r0' ((List.range' (i + 1) k).map w)
      else rangeScan target (i + 1) (acc + w i) r0' ((List.range' (i + 1) k).map w))
    by_cases hT : acc + w i ≥ target
    · rw [if_pos hT]
      have := ih (i + 1) 0 r0' ⟨by simp, by omega, by omega⟩
      rw [if_pos rfl] at this
      refine ⟨?_, ?_, ?_, ?_, ?_⟩
      · intro r hr
        rcases List.mem_cons.1 hr with rfl | hr
        · simp; omega
        · have := this.bounds r hr; omega
      · rw [List.pairwise_cons]
        exact ⟨fun q hq => (this.bounds q hq).1, this.disjoint⟩
      · intro r hr
        cases hR : rangeScan target (i + 1) 0 r0' ((List.range' (i + 1) k).map w) with
        | nil => rw [hR] at hr; simp at hr
        | cons q R =>
          rw [hR, List.dropLast_cons_of_ne_nil (by simp)] at hr
          rcases List.mem_cons.1 hr with rfl | hr
          · show target ≤ weight w r0' (i + 1)
            omega
          · exact this.heavy r (by rw [hR]; exact hr)
      · intro r hr
        rcases List.mem_cons.1 hr with rfl | hr
        · show 0 < weight w r0' (i + 1)
          omega
        · exact this.nonempty r hr
      · intro r hr
        rcases List.mem_cons.1 hr with rfl | hr
        · show weight w r0' (i + 1 - 1) < target
          rw [Nat.add_sub_cancel, hw0]
          by_cases hacc : acc = 0
          · omega
          · exact h.small (by omega)
        · exact this.light r hr
    · rw [if_neg hT]
      have := ih (i + 1) (acc + w i) r0' ⟨by split <;> omega, by omega, by omega⟩
      have hstart : r0' ≤ if acc + w i = 0 then i + 1 else r0' := by split <;> omega
      refine ⟨?_, this.disjoint, this.heavy, this.nonempty, this.light⟩
      intro r hr
      have := this.bounds r hr
      omega

/-- Visiting the lines range by range is visiting all non-empty lines in order. -/
theorem rangeScan_flatMap {β : Type u} (w : Nat → Nat) (target : Nat) (f : Nat → List β)
    (hf : ∀ i, w i = 0 → f i = []) (k : Nat) :
    ∀ i acc r0, (acc ≠ 0 → r0 ≤ i) →
      (rangeScan target i acc r0 ((List.range' i k).map w)).flatMap (fun r => (rangeLines r).flatMap f) =
        (if acc = 0 then [] else (List.range' r0 (i - r0)).flatMap f) ++ (List.range' i k).flatMap f := by
  induction k with
  | zero =>
    intro i acc r0 h
    show (if acc > 0 then [(r0, i)] else []).flatMap _ = _
    by_cases hacc : acc = 0
    · simp [hacc]
    · rw [if_pos (by omega), if_neg hacc]
      simp [rangeLines]
  | succ k ih =>
    intro i acc r0 h
    rw [List.range'_succ, List.map_cons]
    show (if acc + w i ≥ target then ((if acc = 0 then i else r0), i + 1) ::
        rangeScan target (i + 1) 0 (if acc = 0 then i else r0) ((List.range' (i + 1) k).map w)
      else rangeScan target (i + 1) (acc + w i) (if acc = 0 then i else r0)
        ((List.range' (i + 1) k).map w)).flatMap _ = _
    generalize hr0 : (if acc = 0 then i else r0) = r0'
    have hle : r0' ≤ i := by
      rw [← hr0]; split
      · exact Nat.le_refl _
      · exact h (by assumption)
    have hpre : (List.range' r0' (i + 1 - r0')).flatMap f =
        (if acc = 0 then [] else (List.range' r0 (i - r0)).flatMap f) ++ f i := by
      by_cases hacc : acc = 0
      · rw [if_pos hacc] at hr0; subst hr0
        simp [hacc]
      · rw [if_neg hacc] at hr0; subst hr0
        rw [if_neg hacc, show i + 1 - r0 = (i - r0) + 1 from by omega, List.range'_concat,
          List.flatMap_append]
        simp [show r0 + (i - r0) = i from by omega]
    rw [List.flatMap_cons]
    by_cases hT : acc + w i ≥ target
    · rw [if_pos hT, List.flatMap_cons, ih (i + 1) 0 r0' (by simp), if_pos rfl, List.nil_append]
      show (List.range' r0' (i + 1 - r0')).flatMap f ++ _ = _
      rw [hpre, List.append_assoc]
    · rw [if_neg hT, ih (i + 1) (acc + w i) r0' (by omega)]
      by_cases h0 : acc + w i = 0
      · rw [if_pos h0, if_pos (by omega : acc = 0), hf i (by omega)]
        rfl
      · rw [if_neg h0, hpre, List.append_assoc]

end Lacuna
