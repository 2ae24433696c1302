import Verif.Lemmas.PtrLoop
import Verif.Props.Spmv
/-
Work ranges at pointer level: agreement with the splitter, disjointness without any
assumption, and the parallel stores they perform.
-/
namespace Lacuna
variable {V : Type}

theorem addUsize_eq {dbg : Bool} {a b : Nat} (h : a + b ≤ usizeMax) : addUsize dbg a b = .ok (a + b) := by
  unfold addUsize; rw [if_pos h]

theorem rangesP_eq {a : Comp V} {dbg : Bool} {target : Nat} {w : Nat → Nat} (ht : 0 < target) (k : Nat) :
    ∀ i acc r0, (∀ j, i ≤ j → j < i + k → lineLenP dbg a j = .ok (w j) ∧ w j + target ≤ usizeMax) →
      acc < target →
      rangesP dbg target a k i acc r0 = .ok (rangeScan target i acc r0 ((List.range' i k).map w)) := by
  induction k with
  | zero => intro i acc r0 _ _; rfl
  | succ k ih =>
    intro i acc r0 h hacc
    obtain ⟨h1, h2⟩ := h i (Nat.le_refl _) (by omega)
    rw [rangesP, h1, ok_bind, addUsize_eq (by omega), ok_bind, List.range'_succ, List.map_cons,
      rangeScan]
    by_cases hT : acc + w i ≥ target
    · rw [if_pos hT, if_pos hT, ih (i + 1) 0 _ (fun j h3 h4 => h j (by omega) (by omega)) ht, ok_bind]
      rfl
    · rw [if_neg hT, if_neg hT]
      exact ih (i + 1) _ _ (fun j h3 h4 => h j (by omega) (by omega)) (by omega)

/-- The ranges of a matrix whose pointers are in order. -/
theorem Comp.PtrOk.rangesP {a : Comp V} (h : a.PtrOk) (hm : a.Machine) (dbg : Bool) :
    rangesP dbg (128 * 1024) a a.n 0 0 0 = .ok (lineRanges a) := by
  unfold lineRanges
  rw [List.range_eq_range']
  refine rangesP_eq (by decide) a.n 0 0 0 (fun j _ hj => ⟨h.lineLen hm dbg (by omega), ?_⟩) (by decide)
  have := h.ptr_le_indices (i := j + 1) (by omega)
  have := hm.indices
  unfold i64Max at this
  unfold usizeMax
  omega

/-- Without any assumption the ranges are disjoint and within the lines. -/
theorem rangesP_disjoint {a : Comp V} {dbg : Bool} {target : Nat} (k : Nat) :
    ∀ i acc r0 R, (acc ≠ 0 → r0 ≤ i) → rangesP dbg target a k i acc r0 = .ok R →
      (∀ r ∈ R, (if acc = 0 then i else r0) ≤ r.1 ∧ r.2 ≤ i + k) ∧ R.Pairwise fun p q => p.2 ≤ q.1 := by
  induction k with
  | zero =>
    intro i acc r0 R h hR
    have : R = if acc > 0 then [(r0, i)] else [] := by
      have : (Except.ok (if acc > 0 then [(r0, i)] else []) : Except Fault _) = .ok R := hR
      cases this; rfl
    subst this
    split
    · rename_i hpos
      rw [if_neg (by omega)]
      simp
    · simp
  | succ k ih =>
    intro i acc r0 R h hR
    rw [rangesP] at hR
    cases hw : lineLenP dbg a i with
    | error e => rw [hw] at hR; cases hR
    | ok w =>
      rw [hw, ok_bind] at hR
      cases hs : addUsize dbg acc w with
      | error e => rw [hs] at hR; cases hR
      | ok s =>
        rw [hs, ok_bind] at hR
        have hle : (if acc = 0 then i else r0) ≤ i := by
          split
          · omega
          · exact h (by assumption)
        by_cases hT : s ≥ target
        · rw [if_pos hT] at hR
          cases hrest : rangesP dbg target a k (i + 1) 0 (if acc = 0 then i else r0) with
          | error e => rw [hrest] at hR; cases hR
          | ok rest =>
            rw [hrest, ok_bind] at hR
            obtain ⟨h1, h2⟩ := ih (i + 1) 0 _ rest (by simp) hrest
            simp only [if_true] at h1
            have : R = ((if acc = 0 then i else r0), i + 1) :: rest := by cases hR; rfl
            subst this
            refine ⟨fun r hr => ?_, List.Pairwise.cons (fun q hq => (h1 q hq).1) h2⟩
            rcases List.mem_cons.1 hr with rfl | hr
            · exact ⟨Nat.le_refl _, by show i + 1 ≤ _; omega⟩
            · have := h1 r hr
              omega
        · rw [if_neg hT] at hR
          obtain ⟨h1, h2⟩ := ih (i + 1) s _ R (by omega) hR
          refine ⟨fun r hr => ?_, h2⟩
          obtain ⟨h3, h4⟩ := h1 r hr
          refine ⟨?_, by omega⟩
          split at h3 <;> omega

/-- Work items that store one value per line: exactly one outcome. -/
theorem rangesPtr_iff {β : Type} {n : Nat} {w : Nat → Nat} {item : Nat × Nat → Except Fault (List (Nat × β))}
    {g : Nat → β} {z : β} (hz : ∀ i, i < n → w i = 0 → g i = z)
    (hitem : ∀ r : Nat × Nat, r.2 ≤ n → item r = .ok ((rangeLines r).map fun i => (i, g i)))
    (out : Except Fault (List β)) :
    RangesPtr (.ok (rangeScan (128 * 1024) 0 0 0 ((List.range n).map w))) item (List.replicate n z) out
      ↔ out = .ok ((List.range n).map g) := by
  generalize hR : rangeScan (128 * 1024) 0 0 0 ((List.range n).map w) = R
  obtain ⟨h1, _⟩ := ranges_increasing (128 * 1024) (by decide) w n
  have hcov := ranges_cover (128 * 1024) w n
  have hnd := ranges_nodup (128 * 1024) (by decide) w n
  rw [hR] at h1 hcov hnd
  have hmem : ∀ i ∈ R.flatMap rangeLines, i < n := by
    intro i hi
    obtain ⟨r, hr, hi⟩ := List.mem_flatMap.1 hi
    unfold rangeLines at hi
    rw [List.mem_range'_1] at hi
    have := (h1 r hr).2
    omega
  have hflat : (R.map fun r => (rangeLines r).map fun i => (i, g i)).flatten
      = (R.flatMap rangeLines).map fun i => (i, g i) := by
    rw [List.map_flatMap, List.flatMap_def]
  have hps := parStore_iff (init := List.replicate n z)
    (evs := R.map fun r => (rangeLines r).map fun i => (i, g i))
    (res := (List.range n).map g)
    (by
      rw [hflat, List.map_map, show (Prod.fst ∘ fun i => (i, g i)) = id by rfl, List.map_id]
      exact hnd)
    (fun sched hp => by
      rw [hflat] at hp
      apply applyWrites_agree
      · simp
      · intro x hx
        obtain ⟨i, hi, rfl⟩ := List.mem_map.1 (hp.subset hx)
        simp [hmem i hi]
      · intro p hpw
        by_cases hpn : p < n
        · have hw : w p = 0 := by
            refine hcov p hpn fun r hr hin => ?_
            refine hpw (p, g p) (hp.symm.subset (List.mem_map.2 ⟨p, ?_, rfl⟩)) rfl
            refine List.mem_flatMap.2 ⟨r, hr, ?_⟩
            unfold rangeLines
            rw [List.mem_range'_1]; omega
          simp [hpn, hz p hpn hw]
        · simp [hpn])
  have hpe := parEach_ok (items := R) (f := item) (g := fun r => (rangeLines r).map fun i => (i, g i))
    (fun r hr => hitem r (h1 r hr).2)
  show (∃ oe, ParEach R item oe ∧ _) ↔ _
  constructor
  · rintro ⟨oe, hoe, h⟩
    rw [(hpe oe).1 hoe] at h
    exact (hps out).1 h
  · intro h
    exact ⟨_, (hpe _).2 rfl, (hps out).2 h⟩

/-! ### absence of undefined behaviour -/

/-- The computation may fail, but not with undefined behaviour. -/
def NoUb {α : Type} (m : Except Fault α) : Prop := m ≠ .error .ub

theorem NoUb.ok {α : Type} (x : α) : NoUb (.ok x) := by intro h; cases h
theorem NoUb.panic {α : Type} : NoUb (.error .panic : Except Fault α) := by intro h; cases h

theorem NoUb.bind {α β : Type} {m : Except Fault α} {f : α → Except Fault β} (h : NoUb m)
    (hf : ∀ x, m = .ok x → NoUb (f x)) : NoUb (m >>= f) := by
  cases m with
  | ok x => exact hf x rfl
  | error e => intro h'; exact h (by cases h'; rfl)

theorem NoUb.mapM {α β : Type} {f : α → Except Fault β} (l : List α) (h : ∀ x ∈ l, NoUb (f x)) :
    NoUb (l.mapM f) := by
  induction l with
  | nil => exact NoUb.ok _
  | cons x xs ih =>
    rw [List.mapM_cons]
    exact (h x (by simp)).bind fun y _ =>
      (ih fun z hz => h z (by simp [hz])).bind fun _ _ => NoUb.ok _

theorem NoUb.index {α : Type} (v : List α) (i : Nat) : NoUb (index v i) := by
  unfold Lacuna.index
  split
  · exact NoUb.ok _
  · exact NoUb.panic

theorem NoUb.i64ToUsizeP (dbg : Bool) (x : Int) : NoUb (i64ToUsizeP dbg x) := by
  unfold Lacuna.i64ToUsizeP
  split
  · exact NoUb.panic
  · exact NoUb.ok _

theorem NoUb.subUsize (dbg : Bool) (x y : Nat) : NoUb (subUsize dbg x y) := by
  unfold Lacuna.subUsize
  split
  · exact NoUb.ok _
  · split
    · exact NoUb.panic
    · exact NoUb.ok _

theorem NoUb.addUsize (dbg : Bool) (x y : Nat) : NoUb (addUsize dbg x y) := by
  unfold Lacuna.addUsize
  split
  · exact NoUb.ok _
  · split
    · exact NoUb.panic
    · exact NoUb.ok _

theorem NoUb.lineLenP (dbg : Bool) (a : Comp V) (i : Nat) : NoUb (lineLenP dbg a i) := by
  unfold Lacuna.lineLenP
  exact (NoUb.index _ _).bind fun _ _ => (NoUb.i64ToUsizeP _ _).bind fun _ _ =>
    (NoUb.index _ _).bind fun _ _ => (NoUb.i64ToUsizeP _ _).bind fun _ _ => NoUb.subUsize _ _ _

theorem NoUb.rangesP (dbg : Bool) (target : Nat) (a : Comp V) (k : Nat) :
    ∀ i acc r0, NoUb (rangesP dbg target a k i acc r0) := by
  induction k with
  | zero => intro i acc r0; exact NoUb.ok _
  | succ k ih =>
    intro i acc r0
    rw [Lacuna.rangesP]
    refine (NoUb.lineLenP _ _ _).bind fun w _ => (NoUb.addUsize _ _ _).bind fun s _ => ?_
    split
    · exact (ih _ _ _).bind fun _ _ => NoUb.ok _
    · exact ih _ _ _

end Lacuna
