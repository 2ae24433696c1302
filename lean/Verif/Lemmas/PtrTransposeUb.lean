import Verif.Lemmas.PtrTranspose
import Verif.Props.PtrConvert
/-
Strategy A of the transpose on arrays whose pointers are fine but which store an index outside
the matrix: the histogram pass leaves its buffer.
-/
namespace Lacuna
variable {V : Type}

/-- Undefined behaviour, or a result satisfying `P`. -/
def UbOr {α : Type} (o : Except Fault α) (P : α → Prop) : Prop := o = .error .ub ∨ ∃ x, o = .ok x ∧ P x

theorem UbOr.bind {α β : Type} {o : Except Fault α} {f : α → Except Fault β} {P : α → Prop} {Q : β → Prop}
    (h : UbOr o P) (hf : ∀ x, P x → UbOr (f x) Q) : UbOr (o >>= f) Q := by
  rcases h with rfl | ⟨x, rfl, hx⟩
  · exact .inl rfl
  · exact hf x hx

theorem UbOr.mono {α : Type} {o : Except Fault α} {P Q : α → Prop} (h : UbOr o P) (hpq : ∀ x, P x → Q x) :
    UbOr o Q := h.imp id fun ⟨x, e, hx⟩ => ⟨x, e, hpq x hx⟩

theorem untilP_ub {σ : Type} {body : Nat × σ → Except Fault (Nat × σ)} {B lim : Nat}
    (I : Nat → σ → Prop)
    (h : ∀ q s, q + B ≤ lim → I q s → UbOr (body (q, s)) fun r => r.1 = q + B ∧ I r.1 r.2)
    (hB : 0 < B) (k F q : Nat) (s : σ) (hq : lim = q + k * B) (hF : k < F) (hI : I q s) :
    UbOr (untilP F lim body (q, s)) fun r => r.1 = lim ∧ I r.1 r.2 := by
  induction k generalizing F q s with
  | zero =>
    obtain ⟨F, rfl⟩ : ∃ F', F = F' + 1 := ⟨F - 1, by omega⟩
    have : lim = q := by omega
    subst this
    refine .inr ⟨(lim, s), ?_, rfl, hI⟩
    unfold untilP
    rw [whileM_false]
    show Except.ok (decide (lim < lim)) = _
    simp
  | succ k ih =>
    obtain ⟨F, rfl⟩ : ∃ F', F = F' + 1 := ⟨F - 1, by omega⟩
    have e : (k + 1) * B = k * B + B := Nat.succ_mul k B
    have hc : (pure (decide (q < lim)) : Except Fault Bool) = .ok true := by
      rw [decide_eq_true (by omega)]; rfl
    rcases h q s (by omega) hI with h1 | ⟨⟨q1, s1⟩, h1, h2, h3⟩
    · left
      unfold untilP
      rw [whileM]
      show ((pure (decide (q < lim)) : Except Fault Bool) >>= _) = _
      rw [hc, ok_bind, if_pos rfl, h1]
      rfl
    · simp only at h2 h3
      subst h2
      have := ih F (q + B) s1 (by omega) (by omega) h3
      unfold untilP at this ⊢
      rw [whileM_true (s' := (q + B, s1)) hc h1]
      exact this

/-- The histogram after some entries: right length, and no counter beyond the number `q` of
entries read so far. -/
def HistOk (m q : Nat) (c : List Int) : Prop := c.length = m ∧ ∀ x ∈ c, 0 ≤ x ∧ x ≤ q

theorem rawBump_ub {dbg : Bool} {m q j : Nat} {c : List Int} (hc : HistOk m q c) (hq : ((q + 1 : Nat) : Int) ≤ i64Max) :
    UbOr (rawBump dbg c j) fun c' => j < m ∧ HistOk m (q + 1) c' := by
  by_cases hj : j < c.length
  · right
    have hx := hc.2 _ (List.getElem_mem hj)
    unfold rawBump
    rw [asPtr_get hj, ok_bind, addI64_eq (by omega) (by omega) (by push_cast at hq; omega), ok_bind, rawSet_eq hj]
    refine ⟨_, rfl, by rw [← hc.1]; exact hj, by rw [List.length_set]; exact hc.1, fun x hx' => ?_⟩
    rcases List.mem_or_eq_of_mem_set hx' with h | h
    · have := hc.2 x h
      push_cast
      omega
    · push_cast
      omega
  · left
    unfold rawBump Ptr.get Ptr.add
    by_cases e : j = c.length
    · subst e
      simp only [asPtr, Nat.zero_add, le_refl, if_true, ok_bind, Ptr.read]
      rw [List.getElem?_eq_none (by omega)]
      rfl
    · rw [if_neg (by simp only [asPtr]; omega)]
      rfl

theorem loadIdx_any {dbg : Bool} {a : Comp V} (h : a.PtrOk) (hm : a.Machine) (h0 : ∀ j ∈ a.indices, 0 ≤ j) {i : Nat}
    (hi : i < a.n) {k : Nat} (hk : k < (a.row i).length) :
    loadIdx dbg a (a.ptr i + k) = .ok (a.row i)[k].1.toNat := by
  obtain ⟨g1, -⟩ := h.row_get hi k hk
  have hmem := List.mem_of_getElem? g1
  unfold loadIdx getUnchecked
  rw [g1]
  exact i64ToUsizeP_eq (h0 _ hmem) (hm.i64 _ hmem)

/-- One line of the histogram: undefined behaviour, or every index of the line is inside. -/
theorem countLineP_ub {dbg : Bool} {F : Nat} {a : Comp V} (h : a.PtrOk) (hm : a.Machine) (h0 : ∀ j ∈ a.indices, 0 ≤ j)
    {i : Nat} (hi : i < a.n) (hF : (a.row i).length < F) {c : List Int} (hc : HistOk a.m (a.ptr i) c) :
    UbOr (countLineP dbg F a c i) fun c' => HistOk a.m (a.ptr (i + 1)) c' ∧ ∀ e ∈ a.row i, e.1.toNat < a.m := by
  have hl := h.row_length hi
  have hmono := h.ptr_mono' (i := i) (j := i + 1) (by omega) (by omega)
  have hle := h.ptr_le_data (i := i + 1) (by omega)
  have hdm := hm.data
  let I : Nat → List Int → Prop := fun q c => HistOk a.m q c ∧ ∃ d, q = a.ptr i + d ∧
    ∀ k (hk : k < (a.row i).length), k < d → (a.row i)[k].1.toNat < a.m
  have step : ∀ d c, d < (a.row i).length → HistOk a.m (a.ptr i + d) c →
      (∀ k (hk : k < (a.row i).length), k < d → (a.row i)[k].1.toNat < a.m) →
      ∀ (hd : d < (a.row i).length), UbOr (rawBump dbg c (a.row i)[d].1.toNat) fun c' =>
        HistOk a.m (a.ptr i + (d + 1)) c' ∧ ∀ k (hk : k < (a.row i).length), k < d + 1 → (a.row i)[k].1.toNat < a.m := by
    intro d c _ hc hk hd
    refine (rawBump_ub hc (by unfold i64Max at *; omega)).mono ?_
    rintro c' ⟨g1, g2⟩
    refine ⟨g2, fun k hk' hkd => ?_⟩
    rcases Nat.lt_or_ge k d with hlt | hge
    · exact hk k hk' hlt
    · have : k = d := by omega
      subst this
      exact g1
  unfold countLineP
  rw [lineEnds_eq h hm hi, ok_bind]
  simp only
  refine UbOr.bind (untilP_ub (B := 4) I (fun q s hq hI => ?_) (by omega) ((a.row i).length / 4) F (a.ptr i) c
    (by omega) (by omega) ⟨hc, 0, rfl, by simp⟩) ?_
  · obtain ⟨hs, d, rfl, hd⟩ := hI
    have hd4 : d + 4 ≤ (a.row i).length := by omega
    unfold count4P
    simp only
    rw [Nat.add_assoc _ d 1, Nat.add_assoc _ d 2, Nat.add_assoc _ d 3, loadIdx_any h hm h0 hi (k := d) (by omega),
      ok_bind, loadIdx_any h hm h0 hi (k := d + 1) (by omega), ok_bind,
      loadIdx_any h hm h0 hi (k := d + 2) (by omega), ok_bind,
      loadIdx_any h hm h0 hi (k := d + 3) (by omega), ok_bind]
    refine UbOr.bind (step d s (by omega) hs hd (by omega)) fun s1 ⟨hs1, hd1⟩ => ?_
    refine UbOr.bind (step (d + 1) s1 (by omega) hs1 hd1 (by omega)) fun s2 ⟨hs2, hd2⟩ => ?_
    refine UbOr.bind (step (d + 2) s2 (by omega) hs2 hd2 (by omega)) fun s3 ⟨hs3, hd3⟩ => ?_
    refine UbOr.bind (step (d + 3) s3 (by omega) hs3 hd3 (by omega)) fun s4 ⟨hs4, hd4⟩ => ?_
    exact .inr ⟨_, rfl, rfl, hs4, d + 4, rfl, hd4⟩
  · rintro ⟨q, s⟩ ⟨hq, hI⟩
    simp only at hq hI
    subst hq
    refine UbOr.bind (untilP_ub (B := 1) I (fun q s hq hI => ?_) (by omega) ((a.row i).length % 4) F
      _ s (by omega) (by omega) hI) ?_
    · obtain ⟨hs, d, rfl, hd⟩ := hI
      unfold count1P
      simp only
      rw [loadIdx_any h hm h0 hi (k := d) (by omega), ok_bind]
      refine UbOr.bind (step d s (by omega) hs hd (by omega)) fun s1 ⟨hs1, hd1⟩ => ?_
      exact .inr ⟨_, rfl, rfl, hs1, d + 1, rfl, hd1⟩
    · rintro ⟨q, s'⟩ ⟨hq, hs', d, hd, hk⟩
      simp only at hq hs' hd
      refine .inr ⟨s', rfl, ?_, fun e he => ?_⟩
      · have : a.ptr (i + 1) = q := by omega
        rw [this]; exact hs'
      · obtain ⟨k, hkl, rfl⟩ := List.getElem_of_mem he
        exact hk k hkl (by omega)

theorem countLines_ub {dbg : Bool} {F : Nat} {a : Comp V} (h : a.PtrOk) (hm : a.Machine) (h0 : ∀ j ∈ a.indices, 0 ≤ j)
    (hF : a.data.length < F) : ∀ (k s : Nat) (c : List Int), s + k ≤ a.n → HistOk a.m (a.ptr s) c →
    UbOr ((List.range' s k).foldlM (countLineP dbg F a) c) fun _ =>
      ∀ i ∈ List.range' s k, ∀ e ∈ a.row i, e.1.toNat < a.m
  | 0, s, c, _, _ => .inr ⟨c, rfl, by simp⟩
  | k + 1, s, c, hs, hc => by
    have hl := h.row_length (i := s) (by omega)
    have hle := h.ptr_le_data (i := s + 1) (by omega)
    rw [List.range'_succ, List.foldlM_cons]
    refine UbOr.bind (countLineP_ub h hm h0 (by omega) (by omega) hc) fun c1 ⟨hc1, he⟩ => ?_
    refine (countLines_ub h hm h0 hF k (s + 1) c1 (by omega) hc1).mono fun _ hk i hi => ?_
    rcases List.mem_cons.1 hi with rfl | hi
    · exact he
    · exact hk i hi

/-- The histogram of a tile: undefined behaviour, or all its indices are inside. -/
theorem tileCountsP_ub {dbg : Bool} {F T t : Nat} {a : Comp V} (h : a.PtrOk) (hm : a.Machine)
    (h0 : ∀ j ∈ a.indices, 0 ≤ j) (ht : t < T) (hN : ((a.n + T : Nat) : Int) ≤ i64Max)
    (hl : 8 * (a.m : Int) ≤ i64Max) (hF : a.data.length < F) :
    UbOr (tileCountsP dbg F a ((a.n + T - 1) / T) t) fun _ =>
      ∀ i ∈ tileLines a.n T t, ∀ e ∈ a.row i, e.1.toNat < a.m := by
  unfold tileCountsP zerosP
  rw [tileEndsP_eq ht hN, ok_bind, if_pos hl, ok_bind]
  unfold tileLines
  simp only
  generalize (a.n + T - 1) / T = q
  by_cases hle : min (t * q + q) a.n ≤ t * q
  · rw [show min (t * q + q) a.n - t * q = 0 by omega]
    exact .inr ⟨_, rfl, by simp⟩
  · exact countLines_ub h hm h0 hF _ _ _ (by omega)
      ⟨by simp, fun x hx => by rw [List.mem_replicate] at hx; omega⟩

/-- Strategy A on arrays with valid pointers and non-negative indices, one of which is not
inside the matrix: undefined behaviour is the only outcome. -/
theorem transposeAPtr_ub [Zero V] {dbg csr : Bool} {F T : Nat} {a : Comp V} (h : a.PtrOk) (hm : a.Machine)
    (h0 : ∀ j ∈ a.indices, 0 ≤ j) (hT : 1 ≤ T) (hN : ((a.n + T : Nat) : Int) ≤ i64Max)
    (hl : 8 * (a.m : Int) ≤ i64Max) (hF : a.data.length < F) {i : Nat} (hi : i < a.n) {e : Int × V}
    (he : e ∈ a.row i) (hbad : (a.m : Int) ≤ e.1) (out : Except Fault (Comp V)) :
    TransposeAPtr dbg csr F T a out ↔ out = .error .ub := by
  have key := fun t (ht : t < T) => tileCountsP_ub (dbg := dbg) (F := F) h hm h0 ht hN hl hF
  obtain ⟨t, ht, hit⟩ : ∃ t, t < T ∧ i ∈ tileLines a.n T t := by
    have : i ∈ (List.range T).flatMap (tileLines a.n T) := by
      rw [tileLines_all _ _ hT]; simpa using hi
    obtain ⟨t, ht, h⟩ := List.mem_flatMap.1 this
    exact ⟨t, by simpa using ht, h⟩
  have hub : tileCountsP dbg F a ((a.n + T - 1) / T) t = .error .ub := by
    rcases key t ht with h1 | ⟨_, -, h2⟩
    · exact h1
    · have := h2 i hit e he
      omega
  unfold TransposeAPtr
  rw [tileSizeP_eq hT hN]
  constructor
  · rintro ⟨oc, h1, h2⟩
    match oc, h1, h2 with
    | .error x, h1, h2 =>
      obtain ⟨t', ht', h3⟩ := h1
      rcases key t' ht' with h4 | ⟨_, h4, -⟩
      · rw [h3] at h4
        cases h4
        exact h2
      · rw [h3] at h4
        cases h4
    | .ok cs, h1, _ =>
      exfalso
      have h3 : ((List.range T).map (tileCountsP dbg F a ((a.n + T - 1) / T)))[t]? = (cs.map Except.ok)[t]? :=
        congrArg (fun l => l[t]?) h1
      simp only [List.getElem?_map, List.getElem?_range ht, Option.map_some, hub] at h3
      cases hcs : cs[t]? with
      | none => rw [hcs] at h3; cases h3
      | some x => rw [hcs] at h3; cases h3
  · rintro rfl
    exact ⟨.error .ub, ⟨t, ht, hub⟩, rfl⟩

end Lacuna
