import Verif.Lemmas.PtrLoop
import Verif.Lemmas.Spmv
/-
The unrolled dot product at pointer level.
-/
namespace Lacuna
variable {V : Type}

/-- The accesses `L` deliver the pairs `l` from position `base` on. -/
structure LoadsOk (L : Loads V) (base : Nat) (l : List (V × V)) (J : Nat → Nat) : Prop where
  idx : ∀ k, k < l.length → L.idx (base + k) = .ok (J k)
  val : ∀ k (h : k < l.length), L.val (base + k) = .ok (l[k]).1
  vec : ∀ k (h : k < l.length), L.vec (J k) = .ok (l[k]).2

variable [HasFma V] {L : Loads V} {base : Nat} {l : List (V × V)} {J : Nat → Nat}

theorem dot1_take_succ (acc : V) {q : Nat} (h : q < l.length) (n : Nat) :
    dot1 acc ((l.drop q).take (n + 1)) = dot1 (mulAdd l[q].1 l[q].2 acc) ((l.drop (q + 1)).take n) := by
  rw [List.drop_eq_getElem_cons h, List.take_succ_cons]; rfl

theorem dot1_take_add (acc : V) (q a b : Nat) :
    dot1 (dot1 acc ((l.drop q).take a)) ((l.drop (q + a)).take b) = dot1 acc ((l.drop q).take (a + b)) := by
  unfold dot1
  rw [← List.foldl_append, List.take_add, List.drop_drop]

theorem fmaP_eq (h : LoadsOk L base l J) {q : Nat} (hq : q < l.length) (acc : V) :
    fmaP L (base + q) (J q) acc = .ok (mulAdd l[q].1 l[q].2 acc) := by
  unfold fmaP
  rw [h.val q hq, ok_bind, h.vec q hq, ok_bind]; rfl

theorem fma4P_eq (h : LoadsOk L base l J) {q : Nat} (hq : q + 4 ≤ l.length) (acc : V) :
    fma4P L (base + q) (J q) (J (q + 1)) (J (q + 2)) (J (q + 3)) acc
      = .ok (dot1 acc ((l.drop q).take 4)) := by
  unfold fma4P
  rw [fmaP_eq h (by omega), ok_bind, Nat.add_assoc, fmaP_eq h (by omega), ok_bind, Nat.add_assoc,
    fmaP_eq h (by omega), ok_bind, Nat.add_assoc, fmaP_eq h (by omega),
    dot1_take_succ acc (by omega), dot1_take_succ _ (by omega), dot1_take_succ _ (by omega),
    dot1_take_succ _ (by omega)]
  rfl

theorem block16P_eq (h : LoadsOk L base l J) {q : Nat} (hq : q + 16 ≤ l.length) (acc : V) :
    block16P L (base + q, acc) = .ok (base + q + 16, dot1 acc ((l.drop q).take 16)) := by
  have f0 := fma4P_eq h (q := q) (by omega) acc
  have f1 := fma4P_eq h (q := q + 4) (by omega) (dot1 acc ((l.drop q).take 4))
  rw [dot1_take_add] at f1
  have f2 := fma4P_eq h (q := q + 8) (by omega) (dot1 acc ((l.drop q).take 8))
  rw [dot1_take_add] at f2
  have f3 := fma4P_eq h (q := q + 12) (by omega) (dot1 acc ((l.drop q).take 12))
  rw [dot1_take_add] at f3
  simp only [← Nat.add_assoc] at f0 f1 f2 f3
  unfold block16P
  simp only [Nat.add_assoc base q]
  rw [h.idx q (by omega), ok_bind]
  iterate 15 rw [h.idx _ (by omega), ok_bind]
  simp only [Nat.add_assoc] at f0 f1 f2 f3 ⊢
  rw [f0, ok_bind, f1, ok_bind, f2, ok_bind, f3]
  rfl

theorem block8P_eq (h : LoadsOk L base l J) {q : Nat} (hq : q + 8 ≤ l.length) (acc : V) :
    block8P L (base + q, acc) = .ok (base + q + 8, dot1 acc ((l.drop q).take 8)) := by
  have f0 := fma4P_eq h (q := q) (by omega) acc
  have f1 := fma4P_eq h (q := q + 4) (by omega) (dot1 acc ((l.drop q).take 4))
  rw [dot1_take_add] at f1
  unfold block8P
  simp only [Nat.add_assoc base q]
  rw [h.idx q (by omega), ok_bind]
  iterate 7 rw [h.idx _ (by omega), ok_bind]
  simp only [Nat.add_assoc] at f0 f1 ⊢
  rw [f0, ok_bind, f1]
  rfl

theorem block4P_eq (h : LoadsOk L base l J) {q : Nat} (hq : q + 4 ≤ l.length) (acc : V) :
    block4P L (base + q, acc) = .ok (base + q + 4, dot1 acc ((l.drop q).take 4)) := by
  have f0 := fma4P_eq h (q := q) (by omega) acc
  unfold block4P
  simp only [Nat.add_assoc base q]
  rw [h.idx q (by omega), ok_bind]
  iterate 3 rw [h.idx _ (by omega), ok_bind]
  rw [f0]
  rfl

theorem block1P_eq (h : LoadsOk L base l J) {q : Nat} (hq : q + 1 ≤ l.length) (acc : V) :
    block1P L (base + q, acc) = .ok (base + q + 1, dot1 acc ((l.drop q).take 1)) := by
  unfold block1P
  show (do let j ← L.idx (base + q); let acc ← fmaP L (base + q) j acc; pure (base + q + 1, acc)) = _
  rw [h.idx q (by omega), ok_bind, fmaP_eq h (by omega), ok_bind, dot1_take_succ _ (by omega)]
  rfl

/-- A loop over blocks continues the accumulation up to its limit. -/
theorem blockLoop_eq {B : Nat} {body : Nat × V → Except Fault (Nat × V)} (hB : 0 < B)
    (hb : ∀ q acc, q + B ≤ l.length →
      body (base + q, acc) = .ok (base + q + B, dot1 acc ((l.drop q).take B)))
    (acc0 : V) {q lim F : Nat} (k : Nat) (hlim : lim = q + k * B) (hl : lim ≤ l.length) (hF : k < F) :
    untilP F (base + lim) body (base + q, dot1 acc0 (l.take q))
      = .ok (base + lim, dot1 acc0 (l.take lim)) := by
  obtain ⟨s', h1, h2⟩ := untilP_inv (body := body) (B := B) (lim := base + lim)
    (fun p acc => base ≤ p ∧ acc = dot1 acc0 (l.take (p - base)))
    (fun p acc hp ⟨h1, h2⟩ => by
      obtain ⟨q', rfl⟩ : ∃ q', p = base + q' := ⟨p - base, by omega⟩
      refine ⟨_, hb q' acc (by omega), by omega, ?_⟩
      rw [h2, Nat.add_sub_cancel_left, show base + q' + B - base = q' + B by omega]
      have := dot1_take_add (l := l) acc0 0 q' B
      simpa using this)
    hB k F (base + q) (dot1 acc0 (l.take q)) (by omega) hF
    ⟨by omega, by rw [Nat.add_sub_cancel_left]⟩
  rw [h1, h2.2, Nat.add_sub_cancel_left]

theorem dot1_all (acc : V) : dot1 acc (l.take l.length) = dot1 acc l := by rw [List.take_length]

end Lacuna
