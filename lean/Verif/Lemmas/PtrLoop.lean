import Verif.Lemmas.PtrDriver
import Verif.Model.PtrSpmv
import Verif.Spec.PtrIdx
/-
Counting loops, bit masks and parallel stores at pointer level.
-/
namespace Lacuna
variable {V : Type}

theorem andNot_eq {x : Nat} (k : Nat) (hk : k ≤ 64) (hx : x ≤ usizeMax) :
    andNot x (2 ^ k - 1) = x - x % 2 ^ k := by
  have h64 : x < 2 ^ 64 := by unfold usizeMax at hx; omega
  have hp : 0 < 2 ^ k := Nat.pow_pos (by decide)
  have e : usizeMax - (2 ^ k - 1) = 2 ^ 64 - ((2 ^ k - 1) + 1) := by
    have : 2 ^ k ≤ 2 ^ 64 := Nat.pow_le_pow_right (by decide) hk
    unfold usizeMax; omega
  have hd : x - x % 2 ^ k = (x >>> k) <<< k := by
    rw [Nat.shiftLeft_eq, Nat.shiftRight_eq_div_pow]
    have := Nat.div_add_mod x (2 ^ k)
    rw [Nat.mul_comm] at this; omega
  unfold andNot
  rw [e, hd]
  apply Nat.eq_of_testBit_eq
  intro i
  rw [Nat.testBit_and, Nat.testBit_two_pow_sub_succ (by
    have : 2 ^ k ≤ 2 ^ 64 := Nat.pow_le_pow_right (by decide) hk
    omega), Nat.testBit_two_pow_sub_one, Nat.testBit_shiftLeft, Nat.testBit_shiftRight]
  by_cases hi : i < k
  · have : ¬ k ≤ i := by omega
    simp [hi, this]
  · have hki : k ≤ i := by omega
    simp only [hi, decide_false, Bool.not_false, Bool.and_true, hki, decide_true,
      Bool.true_and, Nat.add_sub_cancel' hki]
    by_cases h : i < 64
    · simp [h]
    · have : x.testBit i = false :=
        Nat.testBit_lt_two_pow (Nat.lt_of_lt_of_le h64 (Nat.pow_le_pow_right (by decide) (by omega)))
      simp [this]

/-- A loop that advances by `B` until `lim`, with an invariant. -/
theorem untilP_inv {σ : Type} {body : Nat × σ → Except Fault (Nat × σ)} {B lim : Nat}
    (I : Nat → σ → Prop)
    (h : ∀ q s, q + B ≤ lim → I q s → ∃ s', body (q, s) = .ok (q + B, s') ∧ I (q + B) s')
    (hB : 0 < B) (k F q : Nat) (s : σ) (hq : lim = q + k * B) (hF : k < F) (hI : I q s) :
    ∃ s', untilP F lim body (q, s) = .ok (lim, s') ∧ I lim s' := by
  induction k generalizing F q s with
  | zero =>
    obtain ⟨F, rfl⟩ : ∃ F', F = F' + 1 := ⟨F - 1, by omega⟩
    have : lim = q := by omega
    subst this
    refine ⟨s, ?_, hI⟩
    unfold untilP
    rw [whileM_false]
    show Except.ok (decide (lim < lim)) = _
    simp
  | succ k ih =>
    obtain ⟨F, rfl⟩ : ∃ F', F = F' + 1 := ⟨F - 1, by omega⟩
    have e : (k + 1) * B = k * B + B := Nat.succ_mul k B
    obtain ⟨s1, h1, h2⟩ := h q s (by omega) hI
    obtain ⟨s2, h3, h4⟩ := ih F (q + B) s1 (by omega) (by omega) h2
    refine ⟨s2, ?_, h4⟩
    unfold untilP at h3 ⊢
    rw [whileM_true (s' := (q + B, s1)) (by
      show Except.ok (decide (q < lim)) = _
      rw [decide_eq_true (by omega)]) h1, h3]

/-! ### parallel stores -/

theorem parEach_ok {α β : Type} {items : List α} {f : α → Except Fault β} {g : α → β}
    (h : ∀ i ∈ items, f i = .ok (g i)) (o : Except Fault (List β)) :
    ParEach items f o ↔ o = .ok (items.map g) := by
  have hm : items.map f = (items.map g).map .ok := by
    rw [List.map_map]; exact List.map_congr_left h
  cases o with
  | ok l =>
    show items.map f = l.map .ok ↔ _
    rw [hm, Except.ok.injEq]
    exact ⟨fun e => ((List.map_inj_right fun _ _ e => by cases e; rfl).1 e).symm, fun e => by rw [e]⟩
  | error e =>
    show (∃ i ∈ items, f i = .error e) ↔ _
    constructor
    · rintro ⟨i, hi, he⟩
      rw [h i hi] at he; cases he
    · intro h; cases h

theorem raceFree1_of_nodup {α : Type} {evs : List (List (Nat × α))}
    (h : (evs.flatten.map Prod.fst).Nodup) : raceFree1 evs := by
  induction evs with
  | nil => exact List.Pairwise.nil
  | cons e es ih =>
    simp only [List.flatten_cons, List.map_append, List.nodup_append] at h
    refine List.Pairwise.cons (fun t ht p hp hq => ?_) (ih h.2.1)
    refine h.2.2 p hp p ?_ rfl
    rw [List.mem_map] at hq ⊢
    obtain ⟨x, hx, rfl⟩ := hq
    exact ⟨x, List.mem_flatten.2 ⟨t, ht, hx⟩, rfl⟩

/-- Disjoint stores: exactly one outcome. -/
theorem parStore_iff {α : Type} {init : List α} {evs : List (List (Nat × α))}
    (h : (evs.flatten.map Prod.fst).Nodup) {res : List α}
    (hr : ∀ w : List (Nat × α), w.Perm evs.flatten → applyWrites init w = res)
    (out : Except Fault (List α)) : ParStore init evs out ↔ out = .ok res := by
  have hrf := raceFree1_of_nodup h
  unfold ParStore
  constructor
  · rintro (⟨h1, _⟩ | ⟨_, w, hw, rfl⟩)
    · exact absurd hrf h1
    · rw [hr w hw]
  · rintro rfl
    exact .inr ⟨hrf, _, List.Perm.refl _, by rw [hr _ (List.Perm.refl _)]⟩

theorem mapM_exceptOk {α β : Type} {f : α → Except Fault β} {g : α → β} (l : List α)
    (h : ∀ x ∈ l, f x = .ok (g x)) : l.mapM f = .ok (l.map g) := by
  induction l with
  | nil => rfl
  | cons x xs ih =>
    rw [List.mapM_cons, h x (by simp), ok_bind, ih (fun y hy => h y (by simp [hy])), ok_bind]
    rfl

theorem Comp.PtrOk.lineLen {a : Comp V} (h : a.PtrOk) (hm : a.Machine) (dbg : Bool) {i : Nat}
    (hi : i < a.n) : lineLenP dbg a i = .ok (a.ptr (i + 1) - a.ptr i) := by
  have l1 := h.load hm dbg (i := i) (by omega)
  have l2 := h.load hm dbg (i := i + 1) (by omega)
  have hl := h.ptr_length
  rw [index_eq (by omega), ok_bind] at l1 l2
  unfold lineLenP
  rw [index_eq (by omega), ok_bind, l1, ok_bind, index_eq (by omega), ok_bind, l2, ok_bind,
    subUsize_eq (h.ptr_mono' (by omega) (by omega))]

end Lacuna
