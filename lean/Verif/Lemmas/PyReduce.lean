import Verif.Spec.PyReduce
import Verif.Lemmas.Cells
import Mathlib.Data.List.Sort
/-
Lemmas about axis normalisation and about the fibres of a two-dimensional reduction.
-/
namespace Lacuna
universe u w
variable {V : Type u} {W : Type w}

theorem insertAxis_perm (a : Int) (l : List Int) : (insertAxis a l).Perm (a :: l) := by
  induction l with
  | nil => exact List.Perm.refl _
  | cons b l ih =>
    unfold insertAxis
    split
    · exact List.Perm.refl _
    · exact (List.Perm.cons b ih).trans (List.Perm.swap a b l)

theorem insertAxis_sorted {a : Int} {l : List Int} (h : l.Pairwise (· ≤ ·)) :
    (insertAxis a l).Pairwise (· ≤ ·) := by
  induction l with
  | nil => exact List.pairwise_singleton _ _
  | cons b l ih =>
    obtain ⟨hb, hl⟩ := List.pairwise_cons.1 h
    unfold insertAxis
    split
    · rename_i hab
      refine List.pairwise_cons.2 ⟨fun x hx => ?_, h⟩
      rcases List.mem_cons.1 hx with rfl | hx
      · exact hab
      · exact Int.le_trans hab (hb x hx)
    · rename_i hab
      refine List.pairwise_cons.2 ⟨fun x hx => ?_, ih hl⟩
      rcases List.mem_cons.1 ((insertAxis_perm a l).mem_iff.1 hx) with rfl | hx
      · omega
      · exact hb x hx

theorem sortAxes_perm (l : List Int) : (sortAxes l).Perm l := by
  induction l with
  | nil => exact List.Perm.refl _
  | cons a l ih => exact (insertAxis_perm a _).trans (List.Perm.cons a ih)

theorem sortAxes_sorted (l : List Int) : (sortAxes l).Pairwise (· ≤ ·) := by
  induction l with
  | nil => exact List.Pairwise.nil
  | cons a l ih => exact insertAxis_sorted ih

theorem sortAxes_strict {l : List Int} (h : l.Nodup) : (sortAxes l).Pairwise (· < ·) := by
  have h1 := sortAxes_sorted l
  have h2 : (sortAxes l).Nodup := (sortAxes_perm l).nodup_iff.2 h
  rw [List.nodup_iff_pairwise_ne] at h2
  exact (h1.and h2).imp fun ⟨h, hne⟩ => by omega

/-- The loop: distinct non-negative axes with the right members, or a `ValueError`. -/
theorem normLoopNd_spec (ndim : Nat) (as norm : List Int) (hn : norm.Nodup) :
    ((∀ a ∈ as, -(ndim : Int) ≤ a ∧ a < ndim) →
      ∃ l, normLoopNd ndim norm as = .ok l ∧ l.Pairwise (· < ·) ∧
        ∀ d, d ∈ l ↔ d ∈ norm ∨ (0 ≤ d ∧ d < ndim ∧ (d ∈ as ∨ d - ndim ∈ as))) ∧
    (¬ (∀ a ∈ as, -(ndim : Int) ≤ a ∧ a < ndim) → normLoopNd ndim norm as = .error .valueError) := by
  induction as generalizing norm with
  | nil =>
    refine ⟨fun _ => ⟨_, rfl, sortAxes_strict hn, fun d => ?_⟩, fun h => absurd (by simp) h⟩
    rw [(sortAxes_perm norm).mem_iff]
    simp
  | cons a as ih =>
    unfold normLoopNd
    dsimp only
    generalize hb : (if a < 0 then (ndim : Int) + a else a) = b
    have hbb : (0 ≤ b ∧ b < ndim) ↔ (-(ndim : Int) ≤ a ∧ a < ndim) := by
      rw [← hb]; split <;> omega
    by_cases hv : 0 ≤ b ∧ b < ndim
    · rw [if_neg (not_not.2 hv)]
      have hva := hbb.1 hv
      have hkey : ∀ d : Int, 0 ≤ d → d < ndim → ((d = a ∨ d - ndim = a) ↔ d = b) := by
        intro d h0 h1
        rw [← hb]; split <;> omega
      have hall : (∀ x ∈ a :: as, -(ndim : Int) ≤ x ∧ x < ndim) ↔ ∀ x ∈ as, -(ndim : Int) ≤ x ∧ x < ndim := by
        rw [List.forall_mem_cons]; exact and_iff_right hva
      rw [hall]
      split
      · rename_i hc
        have hc : b ∈ norm := by simpa using hc
        obtain ⟨h1, h2⟩ := ih norm hn
        refine ⟨fun h => ?_, h2⟩
        obtain ⟨l, e, hs, hm⟩ := h1 h
        refine ⟨l, e, hs, fun d => ?_⟩
        rw [hm]
        constructor
        · rintro (h | ⟨h0, h3, h⟩)
          · exact .inl h
          · exact .inr ⟨h0, h3, h.imp (List.mem_cons_of_mem _) (List.mem_cons_of_mem _)⟩
        · rintro (h | ⟨h0, h3, h⟩)
          · exact .inl h
          · rw [List.mem_cons, List.mem_cons] at h
            by_cases hd : d = b
            · exact .inl (hd ▸ hc)
            · have := (hkey d h0 h3).not.2 hd
              rw [not_or] at this
              exact .inr ⟨h0, h3, h.imp (fun h => h.resolve_left this.1) fun h => h.resolve_left this.2⟩
      · rename_i hc
        have hc : b ∉ norm := by simpa using hc
        obtain ⟨h1, h2⟩ := ih (norm ++ [b]) (by
          rw [List.nodup_append]
          refine ⟨hn, List.nodup_singleton b, fun x hx y hy => ?_⟩
          rw [List.mem_singleton] at hy
          rintro rfl
          exact hc (hy ▸ hx))
        refine ⟨fun h => ?_, h2⟩
        obtain ⟨l, e, hs, hm⟩ := h1 h
        refine ⟨l, e, hs, fun d => ?_⟩
        rw [hm, List.mem_append, List.mem_singleton]
        constructor
        · rintro ((h | h) | ⟨h0, h3, h⟩)
          · exact .inl h
          · subst h
            have := (hkey d hv.1 hv.2).2 rfl
            exact .inr ⟨hv.1, hv.2, by
              rw [List.mem_cons, List.mem_cons]
              exact this.imp Or.inl Or.inl⟩
          · exact .inr ⟨h0, h3, h.imp (List.mem_cons_of_mem _) (List.mem_cons_of_mem _)⟩
        · rintro (h | ⟨h0, h3, h⟩)
          · exact .inl (.inl h)
          · rw [List.mem_cons, List.mem_cons] at h
            rcases h with (h | h) | (h | h)
            · exact .inl (.inr ((hkey d h0 h3).1 (.inl h)))
            · exact .inr ⟨h0, h3, .inl h⟩
            · exact .inl (.inr ((hkey d h0 h3).1 (.inr h)))
            · exact .inr ⟨h0, h3, .inr h⟩
    · rw [if_pos hv]
      exact ⟨fun h => absurd (hbb.2 (h a List.mem_cons_self)) hv, fun _ => rfl⟩

theorem normLoop2d_eq (norm as : List Int) : normLoop2d norm as = normLoopNd 2 norm as := by
  induction as generalizing norm with
  | nil => rfl
  | cons a as ih =>
    unfold normLoop2d normLoopNd
    dsimp only
    rw [show (((2 : Nat) : Int) + a) = 2 + a from rfl]
    generalize (if a < 0 then 2 + a else a) = b
    by_cases h : b ≠ 0 ∧ b ≠ 1
    · rw [if_pos h]
      exact (if_pos (by omega)).symm
    · rw [if_neg h, ih, ih]
      exact (if_neg (by omega)).symm

theorem normalizeAxes2d_eq (arg : AxisArg) : normalizeAxes2d arg = normalizeAxesNd 2 arg := by
  cases arg <;> simp only [normalizeAxes2d, normalizeAxesNd, normLoop2d_eq]

theorem covers_some {ndim : Nat} {arg : AxisArg} (h : arg ≠ .none) (d : Nat) :
    arg.covers ndim d = true ↔ (d : Int) ∈ arg.ints ∨ (d : Int) - ndim ∈ arg.ints := by
  have key : ∀ l : List Int, (l.any fun a => a == (d : Int) || a + ndim == (d : Int)) = true ↔
      (d : Int) ∈ l ∨ (d : Int) - ndim ∈ l := by
    intro l
    rw [List.any_eq_true]
    constructor
    · rintro ⟨a, ha, hc⟩
      rw [Bool.or_eq_true, beq_iff_eq, beq_iff_eq] at hc
      rcases hc with rfl | hc
      · exact .inl ha
      · exact .inr (by rw [← hc]; simpa using ha)
    · rintro (h | h)
      · exact ⟨_, h, by simp⟩
      · exact ⟨_, h, by simp⟩
  cases arg with
  | none => exact absurd rfl h
  | one a => exact key _
  | many as => exact key _

/-- C50 in closed form. -/
theorem normalizeAxesNd_eq (ndim : Nat) (arg : AxisArg) (hn : arg ≠ .none) (hv : arg.Valid ndim) :
    normalizeAxesNd ndim arg = .ok (some (((List.range ndim).filter (arg.covers ndim)).map fun (d : Nat) => (d : Int))) := by
  have key : ∃ l, normalizeAxesNd ndim arg = .ok (some l) ∧ l.Pairwise (· < ·) ∧
      ∀ d, d ∈ l ↔ (0 ≤ d ∧ d < ndim ∧ (d ∈ arg.ints ∨ d - ndim ∈ arg.ints)) := by
    have hh := (normLoopNd_spec ndim arg.ints [] List.nodup_nil).1 hv
    obtain ⟨l, e, hs, hm⟩ := hh
    simp only [List.not_mem_nil, false_or] at hm
    cases arg with
    | none => exact absurd rfl hn
    | one a =>
      simp only [AxisArg.ints] at e hm
      exact ⟨l, by simp only [normalizeAxesNd, e]; rfl, hs, hm⟩
    | many as =>
      simp only [AxisArg.ints] at e hm
      refine ⟨l, ?_, hs, hm⟩
      change (if as.length = 0 then Except.ok (some []) else (normLoopNd ndim [] as).map some) = _
      split
      · rename_i h0
        rw [List.length_eq_zero_iff] at h0
        subst h0
        have : l = [] := List.eq_nil_iff_forall_not_mem.2 fun d hd => by simpa using (hm d).1 hd
        rw [this]
      · rw [e]; rfl
  obtain ⟨l, e, hs, hm⟩ := key
  rw [e]
  congr 2
  refine hs.eq_of_mem_iff (r := fun a b : Int => a < b) ?_ fun d => ?_
  · rw [List.pairwise_map]
    exact (List.pairwise_lt_range.filter _).imp fun h => by exact_mod_cast h
  · rw [hm, List.mem_map]
    constructor
    · rintro ⟨h0, h1, h2⟩
      obtain ⟨k, rfl⟩ := Int.eq_ofNat_of_zero_le h0
      refine ⟨k, List.mem_filter.2 ⟨List.mem_range.2 (by exact_mod_cast h1), (covers_some hn k).2 h2⟩, rfl⟩
    · rintro ⟨k, hk, rfl⟩
      obtain ⟨h1, h2⟩ := List.mem_filter.1 hk
      rw [List.mem_range] at h1
      exact ⟨by omega, by omega, (covers_some hn k).1 h2⟩

theorem normalizeAxesNd_invalid (ndim : Nat) (arg : AxisArg) (hv : ¬ arg.Valid ndim) :
    normalizeAxesNd ndim arg = .error .valueError := by
  have hh := (normLoopNd_spec ndim arg.ints [] List.nodup_nil).2 hv
  cases arg with
  | none => exact absurd (by intro a ha; simp [AxisArg.ints] at ha) hv
  | one a =>
    simp only [AxisArg.ints] at hh
    simp only [normalizeAxesNd, hh]; rfl
  | many as =>
    simp only [AxisArg.ints] at hh
    change (if as.length = 0 then Except.ok (some []) else (normLoopNd ndim [] as).map some) = _
    split
    · rename_i h0
      rw [List.length_eq_zero_iff] at h0
      subst h0
      exact absurd (by intro a ha; simp [AxisArg.ints] at ha) hv
    · rw [hh]; rfl

end Lacuna
