import Verif.Model.PtrTranspose
import Verif.Lemmas.PtrConvert
import Verif.Lemmas.PtrSimd
import Verif.Lemmas.Transpose
import Verif.Props.PtrElementwise
/-
The pointer-level transpositions are the list-level ones.
-/
namespace Lacuna
variable {V : Type}

/-! ### primitives -/

theorem mulUsize_eq {dbg : Bool} {a b : Nat} (h : a * b ≤ usizeMax) : mulUsize dbg a b = .ok (a * b) := if_pos h

theorem rawSet_eq {α : Type} {v : List α} {j : Nat} {x : α} (h : j < v.length) :
    rawSet v j x = .ok (v.set j x) := by
  unfold rawSet
  rw [MutPtr.put_eq (by show 0 + j < v.length; omega), ok_bind]
  simp only [Nat.zero_add]
  rfl

/-- A vector of counters given by a function. -/
def cvec (m : Nat) (g : Nat → Nat) : List Int := (List.range m).map fun k => (g k : Int)

theorem cvec_getElem? {m k : Nat} (g : Nat → Nat) (h : k < m) : (cvec m g)[k]? = some (g k : Int) := by
  unfold cvec; rw [List.getElem?_map, List.getElem?_range h]; rfl

theorem cvec_congr {m : Nat} {f g : Nat → Nat} (h : ∀ k, k < m → f k = g k) : cvec m f = cvec m g :=
  List.map_congr_left fun k hk => by rw [h k (List.mem_range.1 hk)]

theorem cvec_zero (m : Nat) : List.replicate m (0 : Int) = cvec m fun _ => 0 := by
  apply List.ext_getElem
  · simp [cvec]
  · intro i h1 h2; simp [cvec]

theorem cvec_set {m : Nat} (g : Nat → Nat) {j : Nat} (x : Nat) :
    (cvec m g).set j (x : Int) = cvec m fun k => if k = j then x else g k := by
  apply List.ext_getElem?
  intro k
  rw [List.getElem?_set]
  by_cases hk : k < m
  · by_cases h : j = k
    · rw [if_pos h, if_pos (by simp [cvec]; omega), cvec_getElem? _ hk, if_pos h.symm]
    · rw [if_neg h, cvec_getElem? _ hk, cvec_getElem? _ hk, if_neg (Ne.symm h)]
  · have e : ∀ f : Nat → Nat, (cvec m f)[k]? = none := fun f => List.getElem?_eq_none (by simp [cvec]; omega)
    rw [e, e]
    by_cases h : j = k
    · rw [if_pos h, if_neg (by simp [cvec]; omega)]
    · rw [if_neg h]

theorem rawBump_eq {dbg : Bool} {m : Nat} {g : Nat → Nat} {j : Nat} (h : j < m)
    (hg : ((g j + 1 : Nat) : Int) ≤ i64Max) :
    rawBump dbg (cvec m g) j = .ok (cvec m fun k => if k = j then g k + 1 else g k) := by
  have hl : j < (cvec m g).length := by simpa [cvec] using h
  unfold rawBump
  rw [asPtr_get hl, ok_bind]
  have e : (cvec m g)[j] = (g j : Int) := by simp [cvec]
  rw [e, addI64_eq (by omega) (by omega) (by push_cast at hg; exact hg), ok_bind, rawSet_eq hl]
  have := cvec_set (m := m) g (j := j) (g j + 1)
  push_cast at this
  rw [this]
  congr 1
  apply cvec_congr
  intro k _
  by_cases hk : k = j
  · rw [if_pos hk, if_pos hk, hk]
  · rw [if_neg hk, if_neg hk]

/-- Number of entries of a line stored for target `k`. -/
def kcR (es : List (Int × V)) (k : Nat) : Nat := (es.filter fun e => e.1.toNat == k).length

theorem kcR_cons (e : Int × V) (es : List (Int × V)) (k : Nat) :
    kcR (e :: es) k = (if k = e.1.toNat then 1 else 0) + kcR es k := by
  unfold kcR
  by_cases h : k = e.1.toNat
  · rw [if_pos h, List.filter_cons_of_pos (by simpa using h.symm), List.length_cons]; omega
  · rw [if_neg h, List.filter_cons_of_neg (by simpa using Ne.symm h)]; omega

theorem kcount_row (es : List (Int × V)) (x : Int) (k : Nat) :
    kcount (es.map fun e => (e.1.toNat, (x, e.2))) k = kcR es k := by
  unfold kcount kcR
  rw [List.filter_map, List.length_map]
  rfl

theorem kcount_kev_cons (a : Comp V) (i : Nat) (lines : List Nat) (k : Nat) :
    kcount (kev a (i :: lines)) k = kcR (a.row i) k + kcount (kev a lines) k := by
  have e : kev a (i :: lines) = (a.row i).map (fun e => (e.1.toNat, (usizeToI64 i, e.2))) ++ kev a lines := by
    simp [kev]
  rw [e, kcount_append, kcount_row]

/-! ### the two loops of a line -/

theorem quadLoop {σ : Type} {quad one : Nat × σ → Except Fault (Nat × σ)} {p len F : Nat} (I : Nat → σ → Prop)
    (h4 : ∀ d s, d + 4 ≤ len → I d s → ∃ s', quad (p + d, s) = .ok (p + d + 4, s') ∧ I (d + 4) s')
    (h1 : ∀ d s, d < len → len < d + 4 → I d s → ∃ s', one (p + d, s) = .ok (p + d + 1, s') ∧ I (d + 1) s')
    (hF : len < F) (s0 : σ) (h0 : I 0 s0) :
    ∃ s', I len s' ∧
      (untilP F (p + len - len % 4) quad (p, s0) >>= fun st => untilP F (p + len) one st) = .ok (p + len, s') := by
  obtain ⟨s1, g1, d1, g2, g3⟩ := untilP_inv (body := quad) (B := 4) (lim := p + len - len % 4)
    (fun q s => ∃ d, q = p + d ∧ I d s) (fun q s hq ⟨d, e, hd⟩ => by
      subst e
      obtain ⟨s', a1, a2⟩ := h4 d s (by omega) hd
      exact ⟨s', a1, d + 4, by omega, a2⟩) (by omega) (len / 4) F p s0 (by omega) (by omega) ⟨0, rfl, h0⟩
  obtain ⟨s2, g4, d2, g5, -, g6⟩ := untilP_inv (body := one) (B := 1) (lim := p + len)
    (fun q s => ∃ d, q = p + d ∧ len < d + 4 ∧ I d s) (fun q s hq ⟨d, e, h3, hd⟩ => by
      subst e
      obtain ⟨s', a1, a2⟩ := h1 d s (by omega) h3 hd
      exact ⟨s', a1, d + 1, by omega, by omega, a2⟩) (by omega) (len % 4) F (p + len - len % 4) s1 (by omega)
      (by omega) ⟨d1, g2, by omega, g3⟩
  have e : d2 = len := by omega
  subst e
  exact ⟨s2, g6, by rw [g1, ok_bind, g4]⟩

theorem lineEnds_eq {dbg : Bool} {a : Comp V} (h : a.PtrOk) (hm : a.Machine) {i : Nat} (hi : i < a.n) :
    lineEnds dbg a i = .ok (a.ptr i, a.ptr i + (a.row i).length,
      a.ptr i + (a.row i).length - (a.row i).length % 4) := by
  obtain ⟨x, l1, l2⟩ := h.loadTask hm dbg (i := i) (by omega)
  obtain ⟨y, l3, l4⟩ := h.loadTask hm dbg (i := i + 1) (by omega)
  have hl := h.row_length hi
  have hmono := h.ptr_mono' (i := i) (j := i + 1) (by omega) (by omega)
  have e3 : ∀ x : Nat, x &&& 3 = x % 4 := fun x => Nat.and_two_pow_sub_one_eq_mod x 2
  unfold lineEnds
  rw [l1, ok_bind, l2, ok_bind, l3, ok_bind, l4, ok_bind, subUsize_eq hmono, ok_bind, e3, ← hl,
    subUsize_eq (by have := Nat.mod_le (a.row i).length 4; omega), ok_bind]
  have : a.ptr (i + 1) = a.ptr i + (a.row i).length := by omega
  rw [this]
  rfl

theorem loadIdx_eq {dbg : Bool} {a : Comp V} (hw : a.WFU) {i : Nat} (hi : i < a.n) {k : Nat}
    (hk : k < (a.row i).length) : loadIdx dbg a (a.ptr i + k) = .ok (a.row i)[k].1.toNat := by
  obtain ⟨g1, -⟩ := hw.ptrOk.row_get hi k hk
  have hb := hw.row_bounds i _ (List.getElem_mem hk)
  unfold loadIdx getUnchecked
  rw [g1]
  exact i64ToUsizeP_eq hb.1 (hw.row_i64 i _ (List.getElem_mem hk))

theorem loadVal_eq {a : Comp V} (hw : a.WFU) {i : Nat} (hi : i < a.n) {k : Nat}
    (hk : k < (a.row i).length) : getUnchecked a.data (a.ptr i + k) = .ok (a.row i)[k].2 := by
  obtain ⟨-, g2⟩ := hw.ptrOk.row_get hi k hk
  unfold getUnchecked
  rw [g2]

theorem rowKey {a : Comp V} (hw : a.WFU) {i k : Nat} (hk : k < (a.row i).length) :
    (a.row i)[k].1.toNat < a.m := by
  have hb := hw.row_bounds i _ (List.getElem_mem hk)
  omega

/-! ### histograms -/

theorem countLineP_eq {dbg : Bool} {F : Nat} {a : Comp V} (hw : a.WFU) (hm : a.Machine) {i : Nat} (hi : i < a.n)
    (hF : (a.row i).length < F) (g : Nat → Nat)
    (hg : ∀ k, k < a.m → ((g k + kcR (a.row i) k : Nat) : Int) ≤ i64Max) :
    countLineP dbg F a (cvec a.m g) i = .ok (cvec a.m fun k => g k + kcR (a.row i) k) := by
  have bump : ∀ (f : Nat → Nat) d (hd : d < (a.row i).length),
      (∀ k, k < a.m → f k + kcR ((a.row i).drop d) k = g k + kcR (a.row i) k) →
      ∃ f' : Nat → Nat, rawBump dbg (cvec a.m f) (a.row i)[d].1.toNat = .ok (cvec a.m f') ∧
        ∀ k, k < a.m → f' k + kcR ((a.row i).drop (d + 1)) k = g k + kcR (a.row i) k := by
    intro f d hd hf
    have hj := rowKey hw hd
    have h1 := hf _ hj
    rw [List.drop_eq_getElem_cons hd, kcR_cons, if_pos rfl] at h1
    have h2 := hg _ hj
    refine ⟨_, rawBump_eq hj (by omega), fun k hk => ?_⟩
    have h3 := hf k hk
    rw [List.drop_eq_getElem_cons hd, kcR_cons] at h3
    rw [← h3]
    by_cases e : k = (a.row i)[d].1.toNat
    · rw [if_pos e, if_pos e]; omega
    · rw [if_neg e, if_neg e]; omega
  obtain ⟨s', ⟨f, rfl, hf⟩, hr⟩ := quadLoop (quad := count4P dbg a) (one := count1P dbg a) (p := a.ptr i)
    (len := (a.row i).length) (F := F)
    (fun d c => ∃ f : Nat → Nat, c = cvec a.m f ∧ ∀ k, k < a.m → f k + kcR ((a.row i).drop d) k = g k + kcR (a.row i) k)
    (by
      rintro d c hd ⟨f, rfl, hf⟩
      obtain ⟨f1, b1, hf1⟩ := bump f d (by omega) hf
      obtain ⟨f2, b2, hf2⟩ := bump f1 (d + 1) (by omega) hf1
      obtain ⟨f3, b3, hf3⟩ := bump f2 (d + 2) (by omega) hf2
      obtain ⟨f4, b4, hf4⟩ := bump f3 (d + 3) (by omega) hf3
      refine ⟨_, ?_, f4, rfl, hf4⟩
      unfold count4P
      simp only
      rw [Nat.add_assoc _ d 1, Nat.add_assoc _ d 2, Nat.add_assoc _ d 3, loadIdx_eq hw hi (by omega), ok_bind,
        loadIdx_eq hw hi (by omega), ok_bind, loadIdx_eq hw hi (by omega), ok_bind,
        loadIdx_eq hw hi (by omega), ok_bind, b1, ok_bind, b2, ok_bind, b3, ok_bind, b4, ok_bind]
      rfl)
    (by
      rintro d c hd - ⟨f, rfl, hf⟩
      obtain ⟨f1, b1, hf1⟩ := bump f d hd hf
      refine ⟨_, ?_, f1, rfl, hf1⟩
      unfold count1P
      simp only
      rw [loadIdx_eq hw hi hd, ok_bind, b1, ok_bind]
      rfl) hF (cvec a.m g) ⟨g, rfl, fun k _ => by rw [List.drop_zero]⟩
  unfold countLineP
  rw [lineEnds_eq hw.ptrOk hm hi, ok_bind]
  simp only
  have hr' := congrArg (fun o => o >>= fun st => (pure st.2 : Except Fault (List Int))) hr
  simp only [bind_assoc] at hr'
  rw [hr', ok_bind]
  show Except.ok _ = _
  congr 1
  apply cvec_congr
  intro k hk
  have := hf k hk
  rw [List.drop_length] at this
  simpa [kcR] using this

theorem countLines_eq {dbg : Bool} {F : Nat} {a : Comp V} (hw : a.WFU) (hm : a.Machine)
    (hF : a.data.length < F) : ∀ (lines : List Nat) (g : Nat → Nat), (∀ i ∈ lines, i < a.n) →
    (∀ k, k < a.m → ((g k + kcount (kev a lines) k : Nat) : Int) ≤ i64Max) →
    lines.foldlM (countLineP dbg F a) (cvec a.m g) = .ok (cvec a.m fun k => g k + kcount (kev a lines) k)
  | [], g, _, _ => by
    show Except.ok _ = _
    congr 1
  | i :: lines, g, h, hg => by
    have hi := h i (by simp)
    have hl := hw.ptrOk.row_length hi
    have hle := hw.ptrOk.ptr_le_data (i := i + 1) (by omega)
    rw [List.foldlM_cons, countLineP_eq hw hm hi (by omega) g (fun k hk => by
      have := hg k hk
      rw [kcount_kev_cons] at this
      omega), ok_bind, countLines_eq hw hm hF lines _ (fun i hi => h i (by simp [hi])) (fun k hk => by
      have := hg k hk
      rw [kcount_kev_cons] at this
      omega)]
    congr 1
    apply cvec_congr
    intro k _
    rw [kcount_kev_cons]; omega

/-! ### filling one tile -/

/-- The stores of a list of writes. -/
def evOf (ws : List (Nat × (Int × V))) : Stores V :=
  (ws.map fun w => (w.1, w.2.1), ws.map fun w => (w.1, w.2.2))

theorem evOf_add_cons (s : Stores V) (w : Nat × (Int × V)) (ws : List (Nat × (Int × V))) :
    s.add (evOf (w :: ws)) = Stores.add (s.1 ++ [(w.1, w.2.1)], s.2 ++ [(w.1, w.2.2)]) (evOf ws) := by
  simp [Stores.add, evOf]

theorem set_some {pos : List Int} {m : Nat} {f : Nat → Nat} (h : ∀ k, k < m → pos[k]? = some (f k : Int)) {j : Nat}
    (x : Nat) : ∀ k, k < m → (pos.set j (x : Int))[k]? = some ((if k = j then x else f k : Nat) : Int) := by
  intro k hk
  have hl := (List.getElem?_eq_some_iff.1 (h k hk)).1
  rw [List.getElem?_set]
  by_cases e : j = k
  · rw [if_pos e, if_pos (by omega), if_pos e.symm]
  · rw [if_neg e, if_neg (Ne.symm e), h k hk]

theorem fillLine_one (i : Nat) (pos : List Int) (e : Int × V) (rest : List (Int × V)) (h : rest.length < 3) :
    fillLine i pos (e :: rest) = pos[i64ToUsize e.1]?.bind fun d =>
      (fillLine i (pos.set (i64ToUsize e.1) (usizeToI64 (i64ToUsize d) + 1)) rest).map fun r =>
        (r.1, (i64ToUsize d, (usizeToI64 i, e.2)) :: r.2) := by
  match rest, h with
  | [], _ => rw [fillLine]; simp
  | [x], _ => rw [fillLine]; simp
  | [x, y], _ => rw [fillLine]; simp

theorem kcR_nil (k : Nat) : kcR ([] : List (Int × V)) k = 0 := rfl

/-- One line of the fill succeeds and stores for every target only to the positions reserved
for it. -/
def FillOk (m i : Nat) (es : List (Int × V)) : Prop :=
  ∀ (nx : Nat → Nat) (pos : List Int),
    (∀ k, k < m → pos[k]? = some (nx k : Int)) → (∀ e ∈ es, 0 ≤ e.1 ∧ e.1 ≤ i64Max ∧ e.1 < m) →
    (∀ k, k < m → ((nx k + kcR es k : Nat) : Int) ≤ i64Max) →
    ∃ pos' ws, ∃ nx' : Nat → Nat, fillLine i pos es = some (pos', ws) ∧
      (∀ k, k < m → pos'[k]? = some (nx' k : Int)) ∧
      (∀ k, nx k ≤ nx' k ∧ nx' k ≤ nx k + kcR es k) ∧
      ∀ w ∈ ws, ∃ k, k < m ∧ nx k ≤ w.1 ∧ w.1 < nx k + kcR es k

theorem fillOk_one {m i : Nat} {e : Int × V} {rest : List (Int × V)} (hl : rest.length < 3)
    (ih : FillOk m i rest) : FillOk m i (e :: rest) := by
  intro nx pos hp hb hc
  obtain ⟨a0, b0, c0⟩ := hb e (by simp)
  have q0 := hc e.1.toNat (by omega)
  rw [kcR_cons, if_pos rfl] at q0
  have s := set_some hp (j := e.1.toNat) (nx e.1.toNat + 1)
  have hn : ∀ k, nx k ≤ (if k = e.1.toNat then nx e.1.toNat + 1 else nx k) ∧
      (if k = e.1.toNat then nx e.1.toNat + 1 else nx k) + kcR rest k = nx k + kcR (e :: rest) k := by
    intro k
    rw [kcR_cons]
    by_cases h : k = e.1.toNat
    · rw [if_pos h, if_pos h, ← h]; omega
    · rw [if_neg h, if_neg h]; omega
  obtain ⟨pos', ws, nx', r1, r2, r3, r4⟩ := ih _ _ s (fun x hx => hb x (by simp [hx]))
    (fun k hk => by have := hn k; have := hc k hk; omega)
  refine ⟨pos', (nx e.1.toNat, (usizeToI64 i, e.2)) :: ws, nx', ?_, r2, fun k => ?_, ?_⟩
  · rw [fillLine_one _ _ _ _ hl, i64ToUsize_of_nonneg a0 b0, hp _ (by omega)]
    simp only [Option.bind_some]
    rw [i64ToUsize_of_nonneg (by omega) (by omega)]
    simp only [Int.toNat_natCast]
    rw [usizeToI64_of_le (n := nx e.1.toNat) (by omega)]
    push_cast at r1
    rw [r1]
    rfl
  · have := hn k; have := r3 k; omega
  · intro w hw
    simp only [List.mem_cons] at hw
    rcases hw with rfl | hw
    · exact ⟨e.1.toNat, by omega, by simp, by simp [kcR_cons]⟩
    · obtain ⟨k, k1, k2, k3⟩ := r4 w hw
      have := hn k
      exact ⟨k, k1, by omega, by omega⟩

theorem fillOk_quad {m i : Nat} {e0 e1 e2 e3 : Int × V} {rest : List (Int × V)}
    (ih : FillOk m i rest) : FillOk m i (e0 :: e1 :: e2 :: e3 :: rest) := by
  intro nx pos hp hb hc
  obtain ⟨a0, b0, c0⟩ := hb e0 (by simp)
  obtain ⟨a1, b1, c1⟩ := hb e1 (by simp)
  obtain ⟨a2, b2, c2⟩ := hb e2 (by simp)
  obtain ⟨a3, b3, c3⟩ := hb e3 (by simp)
  have ex : ∀ k, kcR (e0 :: e1 :: e2 :: e3 :: rest) k = (if k = e0.1.toNat then 1 else 0) +
      ((if k = e1.1.toNat then 1 else 0) + ((if k = e2.1.toNat then 1 else 0) +
      ((if k = e3.1.toNat then 1 else 0) + kcR rest k))) := fun k => by
    rw [kcR_cons, kcR_cons, kcR_cons, kcR_cons]
  have q0 := hc e0.1.toNat (by omega)
  have q1 := hc e1.1.toNat (by omega)
  have q2 := hc e2.1.toNat (by omega)
  have q3 := hc e3.1.toNat (by omega)
  rw [ex, if_pos rfl] at q0
  rw [ex, if_pos (c := e1.1.toNat = e1.1.toNat) rfl] at q1
  rw [ex, if_pos (c := e2.1.toNat = e2.1.toNat) rfl] at q2
  rw [ex, if_pos (c := e3.1.toNat = e3.1.toNat) rfl] at q3
  have s := set_some (set_some (set_some (set_some hp (j := e0.1.toNat) (nx e0.1.toNat + 1))
    (j := e1.1.toNat) (nx e1.1.toNat + 1)) (j := e2.1.toNat) (nx e2.1.toNat + 1))
    (j := e3.1.toNat) (nx e3.1.toNat + 1)
  have hn : ∀ k, nx k ≤ (if k = e3.1.toNat then nx e3.1.toNat + 1 else if k = e2.1.toNat then nx e2.1.toNat + 1
      else if k = e1.1.toNat then nx e1.1.toNat + 1 else if k = e0.1.toNat then nx e0.1.toNat + 1 else nx k) ∧
      (if k = e3.1.toNat then nx e3.1.toNat + 1 else if k = e2.1.toNat then nx e2.1.toNat + 1
      else if k = e1.1.toNat then nx e1.1.toNat + 1 else if k = e0.1.toNat then nx e0.1.toNat + 1 else nx k)
        + kcR rest k ≤ nx k + kcR (e0 :: e1 :: e2 :: e3 :: rest) k := by
    intro k
    rw [ex]
    by_cases h3 : k = e3.1.toNat
    · rw [if_pos h3, if_pos h3, ← h3]; omega
    · rw [if_neg h3, if_neg h3]
      by_cases h2 : k = e2.1.toNat
      · rw [if_pos h2, if_pos h2, ← h2]; omega
      · rw [if_neg h2, if_neg h2]
        by_cases h1 : k = e1.1.toNat
        · rw [if_pos h1, if_pos h1, ← h1]; omega
        · rw [if_neg h1, if_neg h1]
          by_cases h0 : k = e0.1.toNat
          · rw [if_pos h0, if_pos h0, ← h0]; omega
          · rw [if_neg h0, if_neg h0]; omega
  obtain ⟨pos', ws, nx', r1, r2, r3, r4⟩ := ih _ _ s
    (fun e he => hb e (by simp [he])) (fun k hk => by have := hn k; have := hc k hk; omega)
  refine ⟨pos', (nx e0.1.toNat, (usizeToI64 i, e0.2)) :: (nx e1.1.toNat, (usizeToI64 i, e1.2)) ::
    (nx e2.1.toNat, (usizeToI64 i, e2.2)) :: (nx e3.1.toNat, (usizeToI64 i, e3.2)) :: ws, nx', ?_, r2, fun k => ?_, ?_⟩
  · rw [fillLine, i64ToUsize_of_nonneg a0 b0, i64ToUsize_of_nonneg a1 b1, i64ToUsize_of_nonneg a2 b2,
      i64ToUsize_of_nonneg a3 b3, hp _ (by omega), hp _ (by omega), hp _ (by omega), hp _ (by omega)]
    simp only [Option.bind_some]
    rw [i64ToUsize_of_nonneg (by omega) (by omega), i64ToUsize_of_nonneg (by omega) (by omega),
      i64ToUsize_of_nonneg (by omega) (by omega), i64ToUsize_of_nonneg (by omega) (by omega)]
    simp only [Int.toNat_natCast]
    rw [usizeToI64_of_le (n := nx e0.1.toNat) (by omega), usizeToI64_of_le (n := nx e1.1.toNat) (by omega), usizeToI64_of_le (n := nx e2.1.toNat) (by omega), usizeToI64_of_le (n := nx e3.1.toNat) (by omega)]
    push_cast at r1
    rw [r1]
    rfl
  · have := hn k; have := r3 k; omega
  · intro w hw
    simp only [List.mem_cons] at hw
    rcases hw with rfl | rfl | rfl | rfl | hw
    · exact ⟨e0.1.toNat, by omega, by simp, by simp only [ex]; simp⟩
    · exact ⟨e1.1.toNat, by omega, by simp, by simp only [ex]; simp⟩
    · exact ⟨e2.1.toNat, by omega, by simp, by simp only [ex]; simp⟩
    · exact ⟨e3.1.toNat, by omega, by simp, by simp only [ex]; simp⟩
    · obtain ⟨k, k1, k2, k3⟩ := r4 w hw
      have := hn k
      exact ⟨k, k1, by omega, by omega⟩

theorem fillLine_range (m i : Nat) : ∀ es : List (Int × V), FillOk m i es
  | [] => fun nx pos hp _ _ => ⟨pos, [], nx, by rw [fillLine], hp, fun k => ⟨by omega, by omega⟩, by simp⟩
  | [e] => fillOk_one (by simp) (fillLine_range m i [])
  | [e, f] => fillOk_one (by simp) (fillLine_range m i [f])
  | [e, f, g] => fillOk_one (by simp) (fillLine_range m i [f, g])
  | _ :: _ :: _ :: _ :: rest => fillOk_quad (fillLine_range m i rest)

theorem putPairP_eq {dbg : Bool} {nnz i dst : Nat} {v : V} {s : Stores V} (h : dst < nnz) (hi : (i : Int) ≤ i64Max) :
    putPairP dbg nnz i dst (.ok v) s = .ok (s.1 ++ [(dst, (i : Int))], s.2 ++ [(dst, v)]) := by
  unfold putPairP
  rw [MutPtr.add_zero_eq (Nat.le_of_lt h), ok_bind, usizeToI64P_eq hi, ok_bind, MutPtr.write_eq h, ok_bind,
    ok_bind, ok_bind, MutPtr.write_eq h]
  rfl

theorem loadPos_eq {dbg : Bool} {pos : List Int} {j x : Nat} (h : pos[j]? = some (x : Int)) (hx : (x : Int) ≤ i64Max) :
    loadPos dbg pos j = .ok x := by
  obtain ⟨hl, e⟩ := List.getElem?_eq_some_iff.1 h
  unfold loadPos
  rw [asPtr_get hl, ok_bind, e, i64ToUsizeP_eq (by omega) hx, Int.toNat_natCast]

theorem bumpPos_eq {dbg : Bool} {pos : List Int} {j x : Nat} (h : j < pos.length) (hx : (x : Int) + 1 ≤ i64Max) :
    bumpPos dbg pos j x = .ok (pos.set j ((x : Int) + 1)) := by
  unfold bumpPos
  rw [usizeToI64P_eq (by omega), ok_bind, addI64_eq (by omega) (by omega) hx, ok_bind, rawSet_eq h]

theorem nextPosP_eq {dbg csr : Bool} {x : Nat} (hx : (x : Int) + 1 ≤ i64Max) :
    nextPosP dbg csr x = .ok ((x : Int) + 1) := by
  unfold nextPosP
  cases csr with
  | true =>
    rw [if_pos rfl, addUsize_eq' (by omega), ok_bind, usizeToI64P_eq (by omega)]
    rfl
  | false => rw [if_neg (by decide), usizeToI64P_eq (by omega), ok_bind, addI64_eq (by omega) (by omega) hx]

/-- One line of the fill at pointer level. -/
theorem fillLineP_eq {dbg csr : Bool} {F : Nat} {a : Comp V} (hw : a.WFU) (hm : a.Machine) {i : Nat} (hi : i < a.n)
    (hF : (a.row i).length < F) {nx : Nat → Nat} {pos pos' : List Int} {ws : List (Nat × (Int × V))} (ev : Stores V)
    (hp : ∀ k, k < a.m → pos[k]? = some (nx k : Int)) (hc : ∀ k, k < a.m → nx k + kcR (a.row i) k ≤ a.data.length)
    (h : fillLine i pos (a.row i) = some (pos', ws)) :
    fillLineP dbg csr F a (pos, ev) i = .ok (pos', ev.add (evOf ws)) := by
  have hN : (a.data.length : Int) + 1 ≤ i64Max := by have := hm.data; unfold i64Max at *; omega
  have hi' : (i : Int) ≤ i64Max := by
    have := hm.indptr; have := hw.ptrOk.ptr_length; unfold i64Max at *; omega
  have hb : ∀ d (hd : d < (a.row i).length), i64ToUsize (a.row i)[d].1 = (a.row i)[d].1.toNat := fun d hd =>
    i64ToUsize_of_nonneg (hw.row_bounds i _ (List.getElem_mem hd)).1 (hw.row_i64 i _ (List.getElem_mem hd))
  have hu := usizeToI64_of_le hi'
  obtain ⟨st', ⟨nx', ws', g1, g2, g3, g4⟩, hr⟩ := quadLoop (quad := fill4P dbg a i) (one := fill1P dbg csr a i)
    (p := a.ptr i) (len := (a.row i).length) (F := F)
    (fun d st => ∃ nx : Nat → Nat, ∃ us, (∀ k, k < a.m → st.1[k]? = some (nx k : Int)) ∧
      (∀ k, k < a.m → nx k + kcR ((a.row i).drop d) k ≤ a.data.length) ∧
      fillLine i st.1 ((a.row i).drop d) = some (pos', us) ∧ st.2.add (evOf us) = ev.add (evOf ws))
    (by
      rintro d ⟨P, E⟩ hd ⟨f, us, h1, h2, h3, h4⟩
      simp only at h1 h2 h3 h4
      have k0 := rowKey hw (i := i) (k := d) (by omega)
      have k1 := rowKey hw (i := i) (k := d + 1) (by omega)
      have k2 := rowKey hw (i := i) (k := d + 2) (by omega)
      have k3 := rowKey hw (i := i) (k := d + 3) (by omega)
      have v0 := hb d (by omega)
      have v1 := hb (d + 1) (by omega)
      have v2 := hb (d + 2) (by omega)
      have v3 := hb (d + 3) (by omega)
      have x0 := loadIdx_eq (dbg := dbg) hw hi (k := d) (by omega)
      have x1 := loadIdx_eq (dbg := dbg) hw hi (k := d + 1) (by omega)
      have x2 := loadIdx_eq (dbg := dbg) hw hi (k := d + 2) (by omega)
      have x3 := loadIdx_eq (dbg := dbg) hw hi (k := d + 3) (by omega)
      have y0 := loadVal_eq hw hi (k := d) (by omega)
      have y1 := loadVal_eq hw hi (k := d + 1) (by omega)
      have y2 := loadVal_eq hw hi (k := d + 2) (by omega)
      have y3 := loadVal_eq hw hi (k := d + 3) (by omega)
      have ed : (a.row i).drop d = (a.row i)[d] :: (a.row i)[d + 1] :: (a.row i)[d + 2] :: (a.row i)[d + 3] ::
          (a.row i).drop (d + 4) := by
        rw [List.drop_eq_getElem_cons (by omega), List.drop_eq_getElem_cons (by omega),
          List.drop_eq_getElem_cons (by omega), List.drop_eq_getElem_cons (by omega)]
      rw [ed] at h2 h3
      generalize (a.row i)[d] = e0 at *
      generalize (a.row i)[d + 1] = e1 at *
      generalize (a.row i)[d + 2] = e2 at *
      generalize (a.row i)[d + 3] = e3 at *
      generalize (a.row i).drop (d + 4) = rest at *
      have ex : ∀ k, kcR (e0 :: e1 :: e2 :: e3 :: rest) k = (if k = e0.1.toNat then 1 else 0) +
          ((if k = e1.1.toNat then 1 else 0) + ((if k = e2.1.toNat then 1 else 0) +
          ((if k = e3.1.toNat then 1 else 0) + kcR rest k))) := fun k => by
        rw [kcR_cons, kcR_cons, kcR_cons, kcR_cons]
      have q0 := h2 e0.1.toNat k0
      have q1 := h2 e1.1.toNat k1
      have q2 := h2 e2.1.toNat k2
      have q3 := h2 e3.1.toNat k3
      rw [ex, if_pos rfl] at q0
      rw [ex, if_pos (c := e1.1.toNat = e1.1.toNat) rfl] at q1
      rw [ex, if_pos (c := e2.1.toNat = e2.1.toNat) rfl] at q2
      rw [ex, if_pos (c := e3.1.toNat = e3.1.toNat) rfl] at q3
      have s := set_some (set_some (set_some (set_some h1 (j := e0.1.toNat) (f e0.1.toNat + 1))
        (j := e1.1.toNat) (f e1.1.toNat + 1)) (j := e2.1.toNat) (f e2.1.toNat + 1))
        (j := e3.1.toNat) (f e3.1.toNat + 1)
      push_cast at s
      have l0 := (List.getElem?_eq_some_iff.1 (h1 _ k0)).1
      have l1 := (List.getElem?_eq_some_iff.1 (h1 _ k1)).1
      have l2 := (List.getElem?_eq_some_iff.1 (h1 _ k2)).1
      have l3 := (List.getElem?_eq_some_iff.1 (h1 _ k3)).1
      rw [fillLine, v0, v1, v2, v3, h1 _ k0, h1 _ k1, h1 _ k2, h1 _ k3] at h3
      simp only [Option.bind_some] at h3
      rw [i64ToUsize_of_nonneg (j := (f e0.1.toNat : Int)) (by omega) (by omega),
        i64ToUsize_of_nonneg (j := (f e1.1.toNat : Int)) (by omega) (by omega),
        i64ToUsize_of_nonneg (j := (f e2.1.toNat : Int)) (by omega) (by omega),
        i64ToUsize_of_nonneg (j := (f e3.1.toNat : Int)) (by omega) (by omega)] at h3
      simp only [Int.toNat_natCast] at h3
      rw [usizeToI64_of_le (n := f e0.1.toNat) (by omega), usizeToI64_of_le (n := f e1.1.toNat) (by omega),
        usizeToI64_of_le (n := f e2.1.toNat) (by omega), usizeToI64_of_le (n := f e3.1.toNat) (by omega), hu] at h3
      obtain ⟨⟨p', us'⟩, h5, h6⟩ := Option.map_eq_some_iff.1 h3
      simp only [Prod.mk.injEq] at h6
      obtain ⟨rfl, rfl⟩ := h6
      rw [evOf_add_cons, evOf_add_cons, evOf_add_cons, evOf_add_cons] at h4
      refine ⟨(_, _), ?_, fun k => if k = e3.1.toNat then f e3.1.toNat + 1 else if k = e2.1.toNat then f e2.1.toNat + 1
        else if k = e1.1.toNat then f e1.1.toNat + 1 else if k = e0.1.toNat then f e0.1.toNat + 1 else f k,
        us', ?_, fun k hk => ?_, h5, h4⟩
      · unfold fill4P
        simp only
        rw [Nat.add_assoc _ d 1, Nat.add_assoc _ d 2, Nat.add_assoc _ d 3, x0, ok_bind, x1, ok_bind, x2, ok_bind, x3,
          ok_bind, loadPos_eq (h1 _ k0) (by omega), ok_bind, loadPos_eq (h1 _ k1) (by omega), ok_bind,
          loadPos_eq (h1 _ k2) (by omega), ok_bind, loadPos_eq (h1 _ k3) (by omega), ok_bind,
          bumpPos_eq l0 (by omega), ok_bind, bumpPos_eq (by simpa using l1) (by omega), ok_bind,
          bumpPos_eq (by simpa using l2) (by omega), ok_bind, bumpPos_eq (by simpa using l3) (by omega), ok_bind,
          y0, putPairP_eq (by omega) hi', ok_bind, y1, putPairP_eq (by omega) hi', ok_bind, y2,
          putPairP_eq (by omega) hi', ok_bind, y3, putPairP_eq (by omega) hi', ok_bind]
        rfl
      · intro k hk
        have := s k hk
        rw [this]
        push_cast
        rfl
      · have h7 := h2 k hk
        rw [ex] at h7
        beta_reduce
        by_cases c3 : k = e3.1.toNat
        · rw [if_pos c3] at h7 ⊢; rw [← c3]; omega
        · rw [if_neg c3] at h7 ⊢
          by_cases c2 : k = e2.1.toNat
          · rw [if_pos c2] at h7 ⊢; rw [← c2]; omega
          · rw [if_neg c2] at h7 ⊢
            by_cases c1 : k = e1.1.toNat
            · rw [if_pos c1] at h7 ⊢; rw [← c1]; omega
            · rw [if_neg c1] at h7 ⊢
              by_cases c0 : k = e0.1.toNat
              · rw [if_pos c0] at h7 ⊢; rw [← c0]; omega
              · rw [if_neg c0] at h7 ⊢; omega)
    (by
      rintro d ⟨P, E⟩ hd hlt ⟨f, us, h1, h2, h3, h4⟩
      simp only at h1 h2 h3 h4
      have k0 := rowKey hw (i := i) (k := d) hd
      have v0 := hb d hd
      have x0 := loadIdx_eq (dbg := dbg) hw hi (k := d) hd
      have y0 := loadVal_eq hw hi (k := d) hd
      have hrest : ((a.row i).drop (d + 1)).length < 3 := by rw [List.length_drop]; omega
      rw [List.drop_eq_getElem_cons hd] at h2 h3
      generalize (a.row i)[d] = e0 at *
      generalize (a.row i).drop (d + 1) = rest at *
      have q0 := h2 e0.1.toNat k0
      rw [kcR_cons, if_pos rfl] at q0
      have s := set_some h1 (j := e0.1.toNat) (f e0.1.toNat + 1)
      push_cast at s
      have l0 := (List.getElem?_eq_some_iff.1 (h1 _ k0)).1
      rw [fillLine_one _ _ _ _ hrest, v0, h1 _ k0] at h3
      simp only [Option.bind_some] at h3
      rw [i64ToUsize_of_nonneg (j := (f e0.1.toNat : Int)) (by omega) (by omega)] at h3
      simp only [Int.toNat_natCast] at h3
      rw [usizeToI64_of_le (n := f e0.1.toNat) (by omega), hu] at h3
      obtain ⟨⟨p', us'⟩, h5, h6⟩ := Option.map_eq_some_iff.1 h3
      simp only [Prod.mk.injEq] at h6
      obtain ⟨rfl, rfl⟩ := h6
      rw [evOf_add_cons] at h4
      refine ⟨(_, _), ?_, fun k => if k = e0.1.toNat then f e0.1.toNat + 1 else f k,
        us', ?_, fun k hk => ?_, h5, h4⟩
      · unfold fill1P
        simp only
        rw [x0, ok_bind, loadPos_eq (h1 _ k0) (by omega), ok_bind, nextPosP_eq (by omega), ok_bind, rawSet_eq l0, ok_bind,
          y0, putPairP_eq (by omega) hi', ok_bind]
        rfl
      · intro k hk
        have := s k hk
        rw [this]
        push_cast
        rfl
      · have h7 := h2 k hk
        rw [kcR_cons] at h7
        beta_reduce
        by_cases c0 : k = e0.1.toNat
        · rw [if_pos c0] at h7 ⊢; rw [← c0]; omega
        · rw [if_neg c0] at h7 ⊢; omega) hF (pos, ev)
    ⟨nx, ws, hp, by rw [List.drop_zero]; exact hc, by rw [List.drop_zero]; exact h, rfl⟩
  obtain ⟨P, E⟩ := st'
  simp only at g3 g4
  rw [List.drop_length, fillLine] at g3
  simp only [Option.some.injEq, Prod.mk.injEq] at g3
  obtain ⟨rfl, rfl⟩ := g3
  have e4 : E = ev.add (evOf ws) := by rw [← g4]; simp [Stores.add, evOf]
  unfold fillLineP
  rw [lineEnds_eq hw.ptrOk hm hi, ok_bind]
  simp only
  have hr' := congrArg (fun o => o >>= fun st => (pure st.2 : Except Fault (FillA V))) hr
  simp only [bind_assoc] at hr'
  rw [hr', ok_bind, e4]
  rfl

/-- The lines of a tile. -/
theorem fillLines_eq {dbg csr : Bool} {F : Nat} {a : Comp V} (hw : a.WFU) (hm : a.Machine) (hF : a.data.length < F) :
    ∀ (lines : List Nat) (nx : Nat → Nat) (pos : List Int) (ev : Stores V), (∀ i ∈ lines, i < a.n) →
    (∀ k, k < a.m → pos[k]? = some (nx k : Int)) →
    (∀ k, k < a.m → nx k + kcount (kev a lines) k ≤ a.data.length) →
    ∃ ws, fillTile a pos lines = some ws ∧
      (∃ pos', lines.foldlM (fillLineP dbg csr F a) (pos, ev) = .ok (pos', ev.add (evOf ws))) ∧
      ∀ w ∈ ws, ∃ k, k < a.m ∧ nx k ≤ w.1 ∧ w.1 < nx k + kcount (kev a lines) k
  | [], nx, pos, ev, _, _, _ => ⟨[], rfl, ⟨pos, by
      have : ev.add (evOf []) = ev := by simp [Stores.add, evOf]
      rw [this]; rfl⟩, by simp⟩
  | i :: lines, nx, pos, ev, h, hp, hc => by
    have hN : (a.data.length : Int) ≤ i64Max := by have := hm.data; unfold i64Max at *; omega
    have hi := h i (by simp)
    have hl := hw.ptrOk.row_length hi
    have hle := hw.ptrOk.ptr_le_data (i := i + 1) (by omega)
    have hc' : ∀ k, k < a.m → nx k + (kcR (a.row i) k + kcount (kev a lines) k) ≤ a.data.length := fun k hk => by
      have := hc k hk; rw [kcount_kev_cons] at this; exact this
    obtain ⟨p1, w1, n1, f1, f2, f3, f4⟩ := fillLine_range a.m i (a.row i) nx pos hp
      (fun e he => ⟨(hw.row_bounds i e he).1, hw.row_i64 i e he, (hw.row_bounds i e he).2⟩)
      (fun k hk => by have := hc' k hk; omega)
    obtain ⟨ws, g1, ⟨p2, g2⟩, g3⟩ := fillLines_eq hw hm hF lines n1 p1 (ev.add (evOf w1))
      (fun i hi => h i (by simp [hi])) f2 (fun k hk => by have := hc' k hk; have := f3 k; omega)
    refine ⟨w1 ++ ws, ?_, ⟨p2, ?_⟩, ?_⟩
    · rw [fillTile, f1, Option.bind_some, g1]; rfl
    · rw [List.foldlM_cons, fillLineP_eq hw hm hi (by omega) ev hp (fun k hk => by have := hc' k hk; omega) f1, ok_bind, g2]
      congr 2
      simp [Stores.add, evOf]
    · intro w hw'
      rcases List.mem_append.1 hw' with hw' | hw'
      · obtain ⟨k, a1, a2, a3⟩ := f4 w hw'
        exact ⟨k, a1, a2, by rw [kcount_kev_cons]; omega⟩
      · obtain ⟨k, a1, a2, a3⟩ := g3 w hw'
        have := f3 k
        exact ⟨k, a1, by omega, by rw [kcount_kev_cons]; omega⟩

/-! ### pointers and offsets -/

/-- `c 0 k + … + c (T - 1) k`. -/
def psum (c : Nat → Nat → Nat) (k : Nat) : Nat → Nat
  | 0 => 0
  | T + 1 => psum c k T + c T k

/-- First position of target `k`. -/
def bsum (c : Nat → Nat → Nat) (T : Nat) : Nat → Nat
  | 0 => 0
  | k + 1 => bsum c T k + psum c k T

theorem psum_mono (c : Nat → Nat → Nat) (k : Nat) {s t : Nat} (h : s ≤ t) : psum c k s ≤ psum c k t := by
  induction h with
  | refl => exact Nat.le_refl _
  | step _ ih => exact Nat.le_trans ih (Nat.le_add_right _ _)

theorem bsum_mono (c : Nat → Nat → Nat) (T : Nat) {j k : Nat} (h : j ≤ k) : bsum c T j ≤ bsum c T k := by
  induction h with
  | refl => exact Nat.le_refl _
  | step _ ih => exact Nat.le_trans ih (Nat.le_add_right _ _)

/-- A table of counters given by a function. -/
def mvec (T m : Nat) (f : Nat → Nat → Nat) : List (List Int) := (List.range T).map fun t => cvec m (f t)

theorem mvec_index {T m t : Nat} (f : Nat → Nat → Nat) (h : t < T) : index (mvec T m f) t = .ok (cvec m (f t)) := by
  unfold mvec
  rw [index_eq (by simpa using h)]
  simp

theorem cvec_index {m k : Nat} (g : Nat → Nat) (h : k < m) : index (cvec m g) k = .ok (g k : Int) := by
  unfold index
  rw [cvec_getElem? g h]

theorem mvec_congr {T m : Nat} {f g : Nat → Nat → Nat} (h : ∀ t, t < T → ∀ k, k < m → f t k = g t k) :
    mvec T m f = mvec T m g :=
  List.map_congr_left fun t ht => cvec_congr (h t (List.mem_range.1 ht))

theorem mvec_set {T m t : Nat} (f : Nat → Nat → Nat) (g : Nat → Nat) :
    (mvec T m f).set t (cvec m g) = mvec T m fun s => if s = t then g else f s := by
  apply List.ext_getElem
  · simp [mvec]
  · intro s h1 h2
    rw [List.getElem_set]
    have hs : s < T := by simpa [mvec] using h2
    by_cases h : t = s
    · subst h; simp [mvec]
    · simp [mvec, h, Ne.symm h]

theorem cellP_eq {T m t j : Nat} (c : Nat → Nat → Nat) (ht : t < T) (hj : j < m) :
    cellP (mvec T m c) t j = .ok (c t j : Int) := by
  unfold cellP
  rw [mvec_index _ ht, ok_bind, cvec_index _ hj]

theorem sumTilesP_eq {dbg : Bool} {T m j : Nat} (c : Nat → Nat → Nat) (hj : j < m)
    (h : (psum c j T : Int) ≤ i64Max) : sumTilesP dbg T (mvec T m c) j = .ok (psum c j T : Int) := by
  have : ∀ S, S ≤ T → (List.range S).foldlM (fun s t => do addI64 dbg s (← cellP (mvec T m c) t j)) 0 =
      .ok (psum c j S : Int) := by
    intro S
    induction S with
    | zero => intro _; rfl
    | succ S ih =>
      intro hS
      rw [List.range_succ, List.foldlM_append, ih (by omega), ok_bind]
      simp only [List.foldlM_cons, List.foldlM_nil]
      have := psum_mono c j hS
      have e : psum c j (S + 1) = psum c j S + c S j := rfl
      rw [cellP_eq c (by omega) hj, ok_bind, addI64_eq (by omega) (by omega) (by omega), ok_bind]
      show Except.ok _ = _
      rw [e]; push_cast; rfl
  exact this T (Nat.le_refl _)

theorem tilesPtrP_eq {dbg : Bool} {T m : Nat} (c : Nat → Nat → Nat) (hl : 8 * ((m : Int) + 1) ≤ i64Max)
    (h : (bsum c T m : Int) ≤ i64Max) : tilesPtrP dbg m T (mvec T m c) = .ok (cvec (m + 1) (bsum c T)) := by
  have : ∀ J, J ≤ m → (List.range J).foldlM (tilesPtrStep dbg T (mvec T m c)) (cvec (m + 1) fun _ => 0) =
      .ok (cvec (m + 1) fun k => if k ≤ J then bsum c T k else 0) := by
    intro J
    induction J with
    | zero =>
      intro _
      show Except.ok _ = _
      congr 1
      apply cvec_congr
      intro k _
      by_cases hk : k ≤ 0
      · have : k = 0 := by omega
        subst this; rfl
      · rw [if_neg hk]
    | succ J ih =>
      intro hJ
      rw [List.range_succ, List.foldlM_append, ih (by omega), ok_bind]
      simp only [List.foldlM_cons, List.foldlM_nil]
      have hb := bsum_mono c T hJ
      have e : bsum c T (J + 1) = bsum c T J + psum c J T := rfl
      unfold tilesPtrStep
      rw [sumTilesP_eq c (by omega) (by omega), ok_bind, cvec_index _ (by omega), ok_bind, if_pos (Nat.le_refl _),
        addI64_eq (by omega) (by omega) (by omega), ok_bind, setIdxP_eq (by simp [cvec]; omega), ok_bind]
      show Except.ok _ = _
      have := cvec_set (m := m + 1) (fun k => if k ≤ J then bsum c T k else 0) (j := J + 1) (bsum c T (J + 1))
      rw [e] at this
      push_cast at this
      rw [this]
      congr 1
      apply cvec_congr
      intro k _
      by_cases hk : k = J + 1
      · rw [if_pos hk, if_pos (by omega), hk, e]
      · rw [if_neg hk]
        by_cases hk2 : k ≤ J
        · rw [if_pos hk2, if_pos (by omega)]
        · rw [if_neg hk2, if_neg (by omega)]
  unfold tilesPtrP zerosP
  rw [addUsize_eq' (by unfold i64Max at *; push_cast; omega), ok_bind, if_pos (by push_cast; omega), ok_bind, cvec_zero,
    this m (Nat.le_refl _)]
  congr 1
  apply cvec_congr
  intro k hk
  rw [if_pos (by omega)]

theorem offsetsLine_eq {dbg : Bool} {T m j : Nat} (c : Nat → Nat → Nat) (hj : j < m)
    (h : (bsum c T m : Int) ≤ i64Max) (f : Nat → Nat → Nat) :
    offsetsLine dbg T (cvec (m + 1) (bsum c T)) (mvec T m c) (mvec T m f) j =
      .ok (mvec T m fun t k => if k = j then bsum c T j + psum c j t else f t k) := by
  have hb := bsum_mono c T (show j + 1 ≤ m by omega)
  have eb : bsum c T (j + 1) = bsum c T j + psum c j T := rfl
  have : ∀ S, S ≤ T → (List.range S).foldlM (offsetsStep dbg (mvec T m c) j) (mvec T m f, (bsum c T j : Int)) =
      .ok (mvec T m (fun t k => if k = j ∧ t < S then bsum c T j + psum c j t else f t k),
        ((bsum c T j + psum c j S : Nat) : Int)) := by
    intro S
    induction S with
    | zero =>
      intro _
      show Except.ok _ = _
      congr 2
      apply mvec_congr
      intro t _ k _
      rw [if_neg (by omega)]
    | succ S ih =>
      intro hS
      rw [List.range_succ, List.foldlM_append, ih (by omega), ok_bind]
      simp only [List.foldlM_cons, List.foldlM_nil]
      have h1 := psum_mono c j hS
      have e : psum c j (S + 1) = psum c j S + c S j := rfl
      unfold offsetsStep
      rw [mvec_index _ (by omega), ok_bind]
      simp only
      rw [setIdxP_eq (by simp [cvec]; omega), ok_bind, cvec_set, setIdxP_eq (by simp [mvec]; omega), ok_bind, mvec_set,
        cellP_eq c (by omega) hj, ok_bind, addI64_eq (by omega) (by omega) (by push_cast; omega), ok_bind]
      show Except.ok _ = _
      congr 2
      · apply mvec_congr
        intro t _ k _
        by_cases ht : t = S
        · rw [if_pos ht]
          by_cases hk : k = j
          · rw [if_pos hk, if_pos ⟨hk, by omega⟩, ht]
          · rw [if_neg hk, if_neg (by omega), if_neg (by omega), ht]
        · rw [if_neg ht]
          by_cases hk : k = j ∧ t < S
          · rw [if_pos hk, if_pos ⟨hk.1, by omega⟩]
          · rw [if_neg hk, if_neg (by omega)]
      · rw [e]; push_cast; omega
  unfold offsetsLine
  rw [cvec_index _ (by omega), ok_bind, this T (Nat.le_refl _), ok_bind]
  show Except.ok _ = _
  congr 1
  apply mvec_congr
  intro t ht k _
  by_cases hk : k = j
  · rw [if_pos ⟨hk, ht⟩, if_pos hk]
  · rw [if_neg (by omega), if_neg hk]

theorem offsetsP_eq {dbg : Bool} {T m : Nat} (c : Nat → Nat → Nat) (hl : 8 * (m : Int) ≤ i64Max)
    (h : (bsum c T m : Int) ≤ i64Max) :
    offsetsP dbg m T (cvec (m + 1) (bsum c T)) (mvec T m c) = .ok (mvec T m fun t k => bsum c T k + psum c k t) := by
  have : ∀ J, J ≤ m → (List.range J).foldlM (offsetsLine dbg T (cvec (m + 1) (bsum c T)) (mvec T m c))
      (mvec T m fun _ _ => 0) = .ok (mvec T m fun t k => if k < J then bsum c T k + psum c k t else 0) := by
    intro J
    induction J with
    | zero =>
      intro _
      show Except.ok _ = _
      congr 1
    | succ J ih =>
      intro hJ
      rw [List.range_succ, List.foldlM_append, ih (by omega), ok_bind]
      simp only [List.foldlM_cons, List.foldlM_nil]
      rw [offsetsLine_eq c (by omega) h, ok_bind]
      show Except.ok _ = _
      congr 1
      apply mvec_congr
      intro t _ k _
      by_cases hk : k = J
      · rw [if_pos hk, if_pos (by omega), hk]
      · rw [if_neg hk]
        by_cases hk2 : k < J
        · rw [if_pos hk2, if_pos (by omega)]
        · rw [if_neg hk2, if_neg (by omega)]
  unfold offsetsP zerosP
  rw [if_pos hl, ok_bind]
  have e : List.replicate T (List.replicate m (0 : Int)) = mvec T m fun _ _ => 0 := by
    rw [cvec_zero]
    apply List.ext_getElem
    · simp [mvec]
    · intro i h1 h2; simp [mvec]
  rw [e, this m (Nat.le_refl _)]
  congr 1
  apply mvec_congr
  intro t _ k hk
  rw [if_pos hk]

/-! ### the list-level pointers and offsets in the same form -/

theorem foldl_psum {m j : Nat} (c : Nat → Nat → Nat) (hj : j < m) (s : Int) (t : Nat) :
    (mvec t m c).foldl (fun s c => s + c.getD j 0) s = s + (psum c j t : Int) := by
  induction t with
  | zero => simp [mvec, psum]
  | succ t ih =>
    have e : mvec (t + 1) m c = mvec t m c ++ [cvec m (c t)] := by
      unfold mvec; rw [List.range_succ, List.map_append]; rfl
    rw [e, List.foldl_append, ih]
    simp only [List.foldl_cons, List.foldl_nil]
    rw [List.getD_eq_getElem?_getD, cvec_getElem? _ hj]
    simp [psum]
    omega

theorem bsum_take (c : Nat → Nat → Nat) (T m k : Nat) (hk : k ≤ m) :
    (((List.range m).map fun j => psum c j T).take k).sum = bsum c T k := by
  induction k with
  | zero => rfl
  | succ k ih =>
    rw [List.take_succ_eq_append_getElem (by simp; omega), List.sum_append, ih (by omega)]
    simp [bsum]

theorem tilesPtr_mvec (c : Nat → Nat → Nat) (T m : Nat) :
    tilesPtr m (mvec T m c) = cvec (m + 1) (bsum c T) := by
  have e : tilesPtr m (mvec T m c) = prefixPtr ((List.range m).map fun j => psum c j T) := by
    unfold tilesPtr prefixPtr
    rw [← runSum_eq 0]
    simp only [Int.natCast_zero, List.map_map]
    congr 2
    apply List.map_congr_left
    intro j hj
    rw [foldl_psum c (by simpa using hj)]
    simp
  rw [e]
  apply List.ext_getElem
  · simp [cvec, prefixPtr_length]
  · intro k h1 h2
    have hk : k ≤ m := by simp [cvec] at h2; omega
    have := prefixPtr_getD ((List.range m).map fun j => psum c j T) k (by simpa using hk)
    rw [bsum_take c T m k hk, List.getD_eq_getElem?_getD, List.getElem?_eq_getElem h1] at this
    simp only [Option.getD_some] at this
    rw [this]
    simp [cvec]

theorem tileOffsets_mvec (c : Nat → Nat → Nat) {T m t : Nat} (ht : t < T) :
    tileOffsets m (cvec (m + 1) (bsum c T)) (mvec T m c) t = cvec m fun k => bsum c T k + psum c k t := by
  unfold tileOffsets
  rw [show cvec m (fun k => bsum c T k + psum c k t) = (List.range m).map _ from rfl]
  apply List.map_congr_left
  intro j hj
  have hj : j < m := by simpa using hj
  have e : (mvec T m c).take t = mvec t m c := by
    unfold mvec; rw [← List.map_take, List.take_range, Nat.min_eq_left (by omega)]
  rw [e, foldl_psum c hj, List.getD_eq_getElem?_getD, cvec_getElem? _ (by omega)]
  simp

/-! ### strategy A -/

/-- Entries of tile `t` for target `k`. -/
def tcount (a : Comp V) (T t k : Nat) : Nat := kcount (kev a (tileLines a.n T t)) k

theorem psum_tcount (a : Comp V) (T k S : Nat) :
    psum (tcount a T) k S = kcount ((List.range S).flatMap fun t => kev a (tileLines a.n T t)) k := by
  induction S with
  | zero => rfl
  | succ S ih =>
    rw [psum, ih, List.range_succ, List.flatMap_append, kcount_append]
    simp [tcount]

theorem psum_all {a : Comp V} (hw : a.WFU) (hf : a.Fits) {T : Nat} (hT : 1 ≤ T) {k : Nat} (hk : k < a.m) :
    psum (tcount a T) k T = (tline a.events k).length := by
  have hs := interleaving_events a
  have hb := buckets_sched hw hf hs
  have h1 : ((List.range T).flatMap fun t => kev a (tileLines a.n T t)) =
      a.events.map fun e => (e.2.1.toNat, (usizeToI64 e.1, e.2.2)) := by
    have h1 : ((List.range T).flatMap fun t => kev a (tileLines a.n T t)) =
        kev a ((List.range T).flatMap (tileLines a.n T)) := by
      unfold kev
      rw [List.flatMap_assoc]
    rw [h1, tileLines_all _ _ hT, kev_events]
  have := congrArg (fun l => (l.getD k []).length) hb
  simp only [buckets] at this
  rw [List.getD_eq_getElem _ _ (by simpa using hk), List.getD_eq_getElem _ _ (by simpa using hk)] at this
  simp only [List.getElem_map, List.getElem_range, List.length_map] at this
  rw [psum_tcount, h1]
  exact this

theorem bsum_all {a : Comp V} (hw : a.WFU) (hf : a.Fits) {T : Nat} (hT : 1 ≤ T) :
    bsum (tcount a T) T a.m = a.data.length := by
  obtain ⟨_, _, -, -, -, -, hlen⟩ := claimAll_run hw hf (interleaving_events a)
  rw [hlen, List.length_flatten, ← bsum_take _ _ _ _ (Nat.le_refl _), List.take_of_length_le (by simp), List.map_map]
  congr 1
  apply List.map_congr_left
  intro k hk
  exact psum_all hw hf hT (by simpa using hk)

theorem tileSizeP_eq {dbg : Bool} {n T : Nat} (hT : 1 ≤ T) (h : ((n + T : Nat) : Int) ≤ i64Max) :
    tileSizeP dbg n T = .ok ((n + T - 1) / T) := by
  unfold tileSizeP
  rw [addUsize_eq' h, ok_bind, subUsize_eq (by omega), ok_bind]
  rfl

theorem tileEndsP_eq {dbg : Bool} {n T t : Nat} (ht : t < T) (h : ((n + T : Nat) : Int) ≤ i64Max) :
    tileEndsP dbg n ((n + T - 1) / T) t =
      .ok (t * ((n + T - 1) / T), min (t * ((n + T - 1) / T) + (n + T - 1) / T) n) := by
  have h1 : T * ((n + T - 1) / T) ≤ n + T - 1 := Nat.mul_div_le _ _
  have h2 : (t + 1) * ((n + T - 1) / T) ≤ T * ((n + T - 1) / T) := Nat.mul_le_mul_right _ ht
  rw [Nat.succ_mul] at h2
  generalize (n + T - 1) / T = q at *
  unfold tileEndsP
  rw [mulUsize_eq (by unfold usizeMax; unfold i64Max at h; omega), ok_bind, addUsize_eq' (by omega), ok_bind]
  rfl

theorem tileLines_lt {n T t i : Nat} (h : i ∈ tileLines n T t) : i < n := by
  unfold tileLines at h
  simp only [List.mem_range'_1] at h
  omega

theorem raceFree_tiles (c : Nat → Nat → Nat) {T m : Nat} (W : Nat → List (Nat × (Int × V)))
    (hW : ∀ t, t < T → ∀ w ∈ W t, ∃ k, k < m ∧ bsum c T k + psum c k t ≤ w.1 ∧
      w.1 < bsum c T k + psum c k t + c t k) :
    raceFree ((List.range T).map fun t => evOf (W t)) := by
  have dis : ∀ s t, s < t → t < T → ∀ p, p ∈ (W s).map Prod.fst → p ∈ (W t).map Prod.fst → False := by
    intro s t hst ht p hp hq
    obtain ⟨w, hw, rfl⟩ := List.mem_map.1 hp
    obtain ⟨u, hu, e⟩ := List.mem_map.1 hq
    obtain ⟨k, -, k1, k2⟩ := hW s (by omega) w hw
    obtain ⟨l, -, l1, l2⟩ := hW t ht u hu
    have m1 := psum_mono c k (show s + 1 ≤ T by omega)
    have m2 := psum_mono c l (show t + 1 ≤ T by omega)
    have e1 : psum c k (s + 1) = psum c k s + c s k := rfl
    have e2 : psum c l (t + 1) = psum c l t + c t l := rfl
    rcases Nat.lt_trichotomy k l with h | h | h
    · have := bsum_mono c T (show k + 1 ≤ l by omega)
      have e3 : bsum c T (k + 1) = bsum c T k + psum c k T := rfl
      omega
    · subst h
      have := psum_mono c k (show s + 1 ≤ t by omega)
      omega
    · have := bsum_mono c T (show l + 1 ≤ k by omega)
      have e3 : bsum c T (l + 1) = bsum c T l + psum c l T := rfl
      omega
  unfold raceFree
  rw [List.pairwise_map]
  refine List.pairwise_lt_range.imp_of_mem ?_
  intro s t _ ht hst
  have ht : t < T := by simpa using ht
  have f1 : ∀ W : List (Nat × (Int × V)), (evOf W).1.map Prod.fst = W.map Prod.fst := fun W => by
    simp [evOf, List.map_map, Function.comp_def]
  have f2 : ∀ W : List (Nat × (Int × V)), (evOf W).2.map Prod.fst = W.map Prod.fst := fun W => by
    simp [evOf, List.map_map, Function.comp_def]
  rw [f1, f1, f2, f2]
  exact ⟨fun p hp hq => dis s t hst ht p hp hq, fun p hp hq => dis s t hst ht p hp hq⟩

theorem transposeAPtr_iff [Zero V] {dbg csr : Bool} {F T : Nat} {a : Comp V} (hw : a.WFU) (hm : a.Machine)
    (hf : a.Fits) (hT : 1 ≤ T) (hN : ((a.n + T : Nat) : Int) ≤ i64Max) (hl : 8 * ((a.m : Int) + 1) ≤ i64Max)
    (hF : a.data.length < F) (out : Except Fault (Comp V)) :
    TransposeAPtr dbg csr F T a out ↔ ∃ r, TransposeARun T a r ∧ out = .ok r := by
  let c := tcount a T
  have hall : bsum c T a.m = a.data.length := bsum_all hw hf hT
  have hD : (a.data.length : Int) ≤ i64Max := hf.2
  have hpart : ∀ t, t < T → ∀ k, k < a.m → bsum c T k + psum c k t + c t k ≤ a.data.length := by
    intro t ht k hk
    have h1 := psum_mono c k (show t + 1 ≤ T by omega)
    have h2 := bsum_mono c T (show k + 1 ≤ a.m by omega)
    have e1 : psum c k (t + 1) = psum c k t + c t k := rfl
    have e2 : bsum c T (k + 1) = bsum c T k + psum c k T := rfl
    omega
  have hcounts : ∀ t, t < T → tileCountsP dbg F a ((a.n + T - 1) / T) t = .ok (cvec a.m (c t)) := by
    intro t ht
    unfold tileCountsP zerosP
    rw [tileEndsP_eq ht hN, ok_bind, if_pos (by omega), ok_bind, cvec_zero]
    have := countLines_eq (dbg := dbg) (F := F) hw hm hF (tileLines a.n T t) (fun _ => 0)
      (fun i hi => tileLines_lt hi) (fun k hk => by have := hpart t ht k hk; show ((0 + c t k : Nat) : Int) ≤ _; omega)
    simp only [Nat.zero_add] at this
    exact this
  have hlist : (List.range T).mapM (fun t => tileCounts a (tileLines a.n T t)) = some (mvec T a.m c) :=
    mapM_eq_some _ fun t _ => tileCounts_eq hw _
  have hplan : tilesPlanP dbg a.m T (mvec T a.m c) =
      .ok (cvec (a.m + 1) (bsum c T), mvec T a.m fun t k => bsum c T k + psum c k t) := by
    unfold tilesPlanP
    rw [tilesPtrP_eq c hl (by omega), ok_bind, offsetsP_eq c (by omega) (by omega), ok_bind]
    rfl
  have hfill : ∀ t, t < T → ∃ ws,
      fillTile a (tileOffsets a.m (tilesPtr a.m (mvec T a.m c)) (mvec T a.m c) t) (tileLines a.n T t) = some ws ∧
      fillTileP dbg csr F a ((a.n + T - 1) / T) (mvec T a.m fun t k => bsum c T k + psum c k t) t = .ok (evOf ws) ∧
      ∀ w ∈ ws, ∃ k, k < a.m ∧ bsum c T k + psum c k t ≤ w.1 ∧ w.1 < bsum c T k + psum c k t + c t k := by
    intro t ht
    obtain ⟨ws, g1, ⟨pos', g2⟩, g3⟩ := fillLines_eq (dbg := dbg) (csr := csr) (F := F) hw hm hF (tileLines a.n T t)
      (fun k => bsum c T k + psum c k t) (cvec a.m fun k => bsum c T k + psum c k t) ([], [])
      (fun i hi => tileLines_lt hi) (fun k hk => cvec_getElem? _ hk) (fun k hk => hpart t ht k hk)
    refine ⟨ws, ?_, ?_, g3⟩
    · rw [tilesPtr_mvec, tileOffsets_mvec c ht]; exact g1
    · unfold fillTileP
      rw [tileEndsP_eq ht hN, ok_bind]
      simp only
      split
      · rename_i hge
        have e : tileLines a.n T t = [] := by
          unfold tileLines
          simp only
          have : min (t * ((a.n + T - 1) / T) + (a.n + T - 1) / T) a.n - t * ((a.n + T - 1) / T) = 0 := by omega
          rw [this]; rfl
        rw [e] at g1
        simp only [fillTile, Option.some.injEq] at g1
        rw [← g1]
        rfl
      · rw [mvec_index _ ht, ok_bind]
        unfold tileLines at g2
        simp only at g2
        rw [g2, ok_bind]
        show Except.ok _ = _
        simp [Stores.add]
  let W : Nat → List (Nat × (Int × V)) := fun t =>
    (fillTile a (tileOffsets a.m (tilesPtr a.m (mvec T a.m c)) (mvec T a.m c) t) (tileLines a.n T t)).getD []
  have hW : ∀ t, t < T →
      fillTile a (tileOffsets a.m (tilesPtr a.m (mvec T a.m c)) (mvec T a.m c) t) (tileLines a.n T t) = some (W t) ∧
      fillTileP dbg csr F a ((a.n + T - 1) / T) (mvec T a.m fun t k => bsum c T k + psum c k t) t = .ok (evOf (W t)) ∧
      ∀ w ∈ W t, ∃ k, k < a.m ∧ bsum c T k + psum c k t ≤ w.1 ∧ w.1 < bsum c T k + psum c k t + c t k := by
    intro t ht
    obtain ⟨ws, g1, g2, g3⟩ := hfill t ht
    have e : W t = ws := by show Option.getD _ _ = _; rw [g1]; rfl
    rw [e]
    exact ⟨g1, g2, g3⟩
  have hwss : (List.range T).mapM (fun t =>
      fillTile a (tileOffsets a.m (tilesPtr a.m (mvec T a.m c)) (mvec T a.m c) t) (tileLines a.n T t)) =
      some ((List.range T).map W) := mapM_eq_some _ fun t ht => (hW t (by simpa using ht)).1
  have hrace := raceFree_tiles c W fun t ht => (hW t ht).2.2
  have hev1 : ((List.range T).map fun t => evOf (W t)).flatMap Prod.fst =
      ((List.range T).map W).flatten.map fun w => (w.1, w.2.1) := by
    rw [← List.flatMap_def, List.map_flatMap, List.flatMap_map]; rfl
  have hev2 : ((List.range T).map fun t => evOf (W t)).flatMap Prod.snd =
      ((List.range T).map W).flatten.map fun w => (w.1, w.2.2) := by
    rw [← List.flatMap_def, List.map_flatMap, List.flatMap_map]; rfl
  unfold TransposeAPtr
  rw [tileSizeP_eq hT hN]
  have hpc := parCollect_ok hcounts
  have hpf := parCollect_ok (fun t ht => (hW t ht).2.1)
  unfold TransposeARun
  constructor
  · rintro ⟨oc, h1, h2⟩
    rw [(hpc oc).1 h1] at h2
    change (match tilesPlanP dbg a.m T (mvec T a.m c) with
      | .error x => out = .error x
      | .ok plan => TransposeAFill dbg csr F T ((a.n + T - 1) / T) a plan out) at h2
    rw [hplan] at h2
    obtain ⟨oe, h3, h4⟩ := h2
    rw [(hpf oe).1 h3] at h4
    rcases h4 with ⟨h4, -⟩ | ⟨-, wi, wv, p1, p2, rfl⟩
    · exact absurd hrace h4
    · rw [hev1] at p1
      rw [hev2] at p2
      refine ⟨_, ⟨_, hlist, _, hwss, wi, wv, p1, p2, rfl⟩, ?_⟩
      rw [tilesPtr_mvec]
  · rintro ⟨r, ⟨counts, h1, wss, h2, wi, wv, p1, p2, rfl⟩, rfl⟩
    rw [hlist] at h1
    cases h1
    rw [hwss] at h2
    cases h2
    refine ⟨_, (hpc _).2 rfl, ?_⟩
    have e : List.map (fun i => cvec a.m (c i)) (List.range T) = mvec T a.m c := rfl
    simp only [e, hplan]
    refine ⟨_, (hpf _).2 rfl, .inr ⟨hrace, wi, wv, by rw [hev1]; exact p1, by rw [hev2]; exact p2, ?_⟩⟩
    rw [tilesPtr_mvec]

/-! ### strategy B: the fill -/

/-- The entries `es` are what the arrays hold from position `p` on. -/
def ReadsAt (dbg : Bool) (a : Comp V) (p : Nat) (es : List (Int × V)) : Prop :=
  ∀ k (h : k < es.length), loadIdx dbg a (p + k) = .ok es[k].1.toNat ∧ getUnchecked a.data (p + k) = .ok es[k].2

theorem ReadsAt.tail {dbg : Bool} {a : Comp V} {p : Nat} {e : Int × V} {es : List (Int × V)}
    (h : ReadsAt dbg a p (e :: es)) : ReadsAt dbg a (p + 1) es := fun k hk => by
  have := h (k + 1) (by simpa using hk)
  simpa [Nat.add_assoc, Nat.add_comm 1 k] using this

theorem ReadsAt.head {dbg : Bool} {a : Comp V} {p : Nat} {e : Int × V} {es : List (Int × V)}
    (h : ReadsAt dbg a p (e :: es)) : loadIdx dbg a p = .ok e.1.toNat ∧ getUnchecked a.data p = .ok e.2 :=
  h 0 (by simp)

theorem claim1_plan {dbg : Bool} {a : Comp V} (hN : (a.data.length : Int) ≤ i64Max) {i : Nat}
    (hi : (i : Int) ≤ i64Max) {lim : Nat} : ∀ (es : List (Int × V)) (p F : Nat), ReadsAt dbg a p es →
    (∀ e ∈ es, 0 ≤ e.1 ∧ e.1 ≤ i64Max) → lim = p + es.length → es.length < F →
    Plan a.data.length (usizeToI64 i) (Task.stepUntil lim 1 (claim1 dbg a i) F p >>= fun _ => pure ()) es [] []
  | _, _, 0, _, _, _, h => by omega
  | [], p, F + 1, _, _, hl, _ => by
    rw [Task.stepUntil, if_neg (by simp at hl; omega)]
    exact Plan.ret
  | (x, v) :: es, p, F + 1, h, hb, hl, hF => by
    obtain ⟨h1, h2⟩ := h.head
    obtain ⟨b0, b1⟩ := hb (x, v) (by simp)
    simp only at h1 h2 b0 b1
    simp only [List.length_cons] at hl hF
    rw [Task.stepUntil, if_pos (by omega), Task.bind_assoc']
    have hbody : claim1 dbg a i p = .fetchAdd x.toNat (fun d =>
        (liftM (i64ToUsizeP dbg d) : Task V Nat) >>= fun dst =>
        Task.writeIdx a.data.length dst (usizeToI64P dbg i) >>= fun _ =>
        Task.writeVal a.data.length dst (.ok v)) := by
      unfold claim1
      simp only [h1, h2, Task.liftM_ok, Task.ret_bind, Task.claim_bind]
    rw [hbody, Task.fetchAdd_bind]
    refine Plan.claim (i64ToUsize_of_nonneg b0 b1).symm fun d d0 d1 => ?_
    have hd : d.toNat < a.data.length := by omega
    rw [i64ToUsizeP_eq d0 (by omega), usizeToI64P_eq hi, usizeToI64_of_le hi]
    simp only [Task.liftM_ok, Task.ret_bind, Task.writeIdx_eq hd, Task.writeVal_eq hd, Task.store_bind]
    refine Plan.idx (Plan.val ?_)
    have := claim1_plan (dbg := dbg) hN hi (lim := lim) es (p + 1) F h.tail (fun e he => hb e (by simp [he]))
      (by omega) (by omega)
    rw [usizeToI64_of_le hi] at this
    exact this

theorem claim4_plan {dbg : Bool} {a : Comp V} (hN : (a.data.length : Int) ≤ i64Max) {i : Nat}
    (hi : (i : Int) ≤ i64Max) {lim lim4 F' : Nat} : ∀ (es : List (Int × V)) (p F : Nat), ReadsAt dbg a p es →
    (∀ e ∈ es, 0 ≤ e.1 ∧ e.1 ≤ i64Max) → lim = p + es.length → lim4 = lim - es.length % 4 → es.length < F →
    es.length < F' →
    Plan a.data.length (usizeToI64 i) (Task.stepUntil lim4 4 (claim4 dbg a i) F p >>= fun q =>
      Task.stepUntil lim 1 (claim1 dbg a i) F' q >>= fun _ => pure ()) es [] []
  | _, _, 0, _, _, _, _, h, _ => by omega
  | [], p, F + 1, h, hb, hl, hl4, _, hF' => by
    rw [Task.stepUntil, if_neg (by simp at hl hl4; omega), Task.ret_bind]
    exact claim1_plan hN hi _ _ _ h hb hl hF'
  | [e0], p, F + 1, h, hb, hl, hl4, _, hF' => by
    rw [Task.stepUntil, if_neg (by simp at hl hl4; omega), Task.ret_bind]
    exact claim1_plan hN hi _ _ _ h hb hl hF'
  | [e0, e1], p, F + 1, h, hb, hl, hl4, _, hF' => by
    rw [Task.stepUntil, if_neg (by simp at hl hl4; omega), Task.ret_bind]
    exact claim1_plan hN hi _ _ _ h hb hl hF'
  | [e0, e1, e2], p, F + 1, h, hb, hl, hl4, _, hF' => by
    rw [Task.stepUntil, if_neg (by simp at hl hl4; omega), Task.ret_bind]
    exact claim1_plan hN hi _ _ _ h hb hl hF'
  | (x0, v0) :: (x1, v1) :: (x2, v2) :: (x3, v3) :: es, p, F + 1, h, hb, hl, hl4, hF, hF' => by
    obtain ⟨r0, w0⟩ := h.head
    obtain ⟨r1, w1⟩ := h.tail.head
    obtain ⟨r2, w2⟩ := h.tail.tail.head
    obtain ⟨r3, w3⟩ := h.tail.tail.tail.head
    obtain ⟨a0, b0⟩ := hb (x0, v0) (by simp)
    obtain ⟨a1, b1⟩ := hb (x1, v1) (by simp)
    obtain ⟨a2, b2⟩ := hb (x2, v2) (by simp)
    obtain ⟨a3, b3⟩ := hb (x3, v3) (by simp)
    simp only at r0 w0 r1 w1 r2 w2 r3 w3 a0 b0 a1 b1 a2 b2 a3 b3
    rw [show p + 1 + 1 = p + 2 from rfl] at r2 w2
    rw [show p + 1 + 1 + 1 = p + 3 from rfl] at r3 w3
    simp only [List.length_cons] at hl hl4 hF hF'
    rw [Task.stepUntil, if_pos (by omega), Task.bind_assoc']
    have hrest := claim4_plan (dbg := dbg) hN hi (lim := lim) (lim4 := lim4) (F' := F') es (p + 4) F
      h.tail.tail.tail.tail (fun e he => hb e (by simp [he])) (by omega) (by omega) (by omega) (by omega)
    generalize (Task.stepUntil lim4 4 (claim4 dbg a i) F (p + 4) >>= fun q =>
      Task.stepUntil lim 1 (claim1 dbg a i) F' q >>= fun _ => pure ()) = K at *
    rw [usizeToI64_of_le hi] at hrest
    unfold claim4
    simp only [r0, w0, r1, w1, r2, w2, r3, w3, Task.liftM_ok, Task.ret_bind, Task.claim_bind, Task.fetchAdd_bind,
      Task.bind_assoc']
    refine Plan.claim (i64ToUsize_of_nonneg a0 b0).symm fun d0 c0 g0 => ?_
    rw [i64ToUsizeP_eq c0 (by omega)]
    simp only [Task.liftM_ok, Task.ret_bind]
    refine Plan.claim (i64ToUsize_of_nonneg a1 b1).symm fun d1 c1 g1 => ?_
    rw [i64ToUsizeP_eq c1 (by omega)]
    simp only [Task.liftM_ok, Task.ret_bind]
    refine Plan.claim (i64ToUsize_of_nonneg a2 b2).symm fun d2 c2 g2 => ?_
    rw [i64ToUsizeP_eq c2 (by omega)]
    simp only [Task.liftM_ok, Task.ret_bind]
    refine Plan.claim (i64ToUsize_of_nonneg a3 b3).symm fun d3 c3 g3 => ?_
    rw [i64ToUsizeP_eq c3 (by omega)]
    have q0 : d0.toNat < a.data.length := by omega
    have q1 : d1.toNat < a.data.length := by omega
    have q2 : d2.toNat < a.data.length := by omega
    have q3 : d3.toNat < a.data.length := by omega
    rw [usizeToI64P_eq hi, usizeToI64_of_le hi]
    simp only [Task.liftM_ok, Task.ret_bind, Task.writeIdx_eq q0, Task.writeVal_eq q0, Task.writeIdx_eq q1,
      Task.writeVal_eq q1, Task.writeIdx_eq q2, Task.writeVal_eq q2, Task.writeIdx_eq q3, Task.writeVal_eq q3,
      Task.store_bind, List.nil_append, List.cons_append]
    refine Plan.idx (Plan.val (Plan.idx (Plan.val (Plan.idx (Plan.val (Plan.idx (Plan.val ?_)))))))
    exact hrest

theorem claimLine_plan {dbg : Bool} {F : Nat} {a : Comp V} (hw : a.WFU) (hm : a.Machine) {i : Nat} (hi : i < a.n)
    (hF : (a.row i).length < F) :
    Plan a.data.length (usizeToI64 i) (claimLine dbg F a i) (a.row i) [] [] := by
  unfold claimLine
  rw [lineEnds_eq hw.ptrOk hm hi]
  simp only [Task.liftM_ok, Task.ret_bind]
  have h1 := hm.data
  have h2 := hm.indptr
  have h3 := hw.ptrOk.ptr_length
  exact claim4_plan (by unfold i64Max at *; omega) (by unfold i64Max at *; omega) _ _ _
    (fun k hk => ⟨loadIdx_eq hw hi hk, loadVal_eq hw hi hk⟩)
    (fun e he => ⟨(hw.row_bounds i e he).1, hw.row_i64 i e he⟩) rfl rfl hF hF

/-! ### strategy B: the sort -/

theorem storePairsP_eq {nnz s : Nat} : ∀ (l : List (Int × V)) (k : Nat), s + k + l.length ≤ nnz →
    storePairsP nnz s k l = .ok (evOf (lineWrites (s + k) l))
  | [], _, _ => rfl
  | (r, v) :: l, k, h => by
    simp only [List.length_cons] at h
    rw [storePairsP, MutPtr.add_zero_eq (by omega), ok_bind, MutPtr.write_eq (by omega), ok_bind, ok_bind,
      MutPtr.write_eq (by omega), ok_bind, storePairsP_eq l (k + 1) (by omega), ok_bind]
    rfl

theorem collectUp_row {c : Comp V} (h : c.PtrOk) {j : Nat} (hj : j < c.n) :
    collectUp (loadPairP c) (c.ptr (j + 1) - c.ptr j) (c.ptr j) = .ok (c.row j) := by
  have : ∀ (es : List (Int × V)) (p : Nat),
      (∀ k (hk : k < es.length), c.indices[p + k]? = some es[k].1 ∧ c.data[p + k]? = some es[k].2) →
      collectUp (loadPairP c) es.length p = .ok es := by
    intro es
    induction es with
    | nil => intro p _; rfl
    | cons e es ih =>
      intro p hp
      obtain ⟨g1, g2⟩ := hp 0 (by simp)
      simp only [Nat.add_zero, List.getElem_cons_zero] at g1 g2
      obtain ⟨l1, e1⟩ := List.getElem?_eq_some_iff.1 g1
      obtain ⟨l2, e2⟩ := List.getElem?_eq_some_iff.1 g2
      have hb : loadPairP c p = .ok e := by
        unfold loadPairP
        rw [asPtr_get l1, ok_bind, asPtr_get l2, ok_bind, e1, e2]
        rfl
      simp only [List.length_cons, collectUp]
      rw [hb, ok_bind, ih (p + 1) (fun k hk => by
        have := hp (k + 1) (by simpa using hk)
        simpa [Nat.add_assoc, Nat.add_comm 1 k] using this), ok_bind]
      rfl
  rw [← h.row_length hj]
  exact this _ _ fun k hk => h.row_get hj k hk

/-- Writes of the sort of one line. -/
def sortLineW (sort : List (Int × V) → List (Int × V)) (c : Comp V) (j : Nat) : List (Nat × (Int × V)) :=
  if c.ptr (j + 1) ≤ c.ptr j + 1 then [] else lineWrites (c.ptr j) (sort (c.row j))

theorem sortLineP_eq {dbg : Bool} {sort : List (Int × V) → List (Int × V)} (hs : ∀ l, (sort l).length = l.length)
    {c : Comp V} (h : c.PtrOk) (hm : c.Machine) (h16 : 16 * (c.data.length : Int) ≤ i64Max) {j : Nat} (hj : j < c.n) :
    ∃ rs, sortLineP dbg sort c j = .ok (rs, evOf (sortLineW sort c j)) ∧
      ∀ p ∈ rs, c.ptr j ≤ p ∧ p < c.ptr (j + 1) := by
  have hl := h.ptr_length
  have hd := h.ptr_le_data (i := j + 1) (by omega)
  have h1 : (asPtr c.indptr).get j = .ok (c.indptr.getD j 0) := by
    rw [asPtr_get (by omega), List.getD_eq_getElem _ _ (by omega)]
  have h2 : (asPtr c.indptr).get (j + 1) = .ok (c.indptr.getD (j + 1) 0) := by
    rw [asPtr_get (by omega), List.getD_eq_getElem _ _ (by omega)]
  have hmono := h.ptr_mono' (i := j) (j := j + 1) (by omega) (by omega)
  have c1 := h.cast (i := j) (by omega)
  have c2 := h.cast (i := j + 1) (by omega)
  have e1 : i64ToUsizeP dbg (c.indptr.getD j 0) = .ok (c.ptr j) := by
    rw [← c1, i64ToUsizeP_eq (by omega) (by omega), Int.toNat_natCast]
  have e2 : i64ToUsizeP dbg (c.indptr.getD (j + 1) 0) = .ok (c.ptr (j + 1)) := by
    rw [← c2, i64ToUsizeP_eq (by omega) (by omega), Int.toNat_natCast]
  have hdm := hm.data
  unfold sortLineP sortLineW
  rw [h1, ok_bind, e1, ok_bind, h2, ok_bind, e2, ok_bind, addUsize_eq' (by unfold i64Max at *; push_cast; omega), ok_bind]
  by_cases hs1 : c.ptr (j + 1) ≤ c.ptr j + 1
  · rw [if_pos hs1, if_pos hs1]
    exact ⟨[], rfl, by simp⟩
  · rw [if_neg hs1, if_neg hs1, if_neg (by omega), collectUp_row h hj, ok_bind,
      storePairsP_eq _ 0 (by rw [hs, h.row_length hj]; omega), ok_bind]
    exact ⟨_, rfl, fun p hp => by simp only [List.mem_range'_1] at hp; omega⟩

theorem sortLineW_range {sort : List (Int × V) → List (Int × V)} (hs : ∀ l, (sort l).length = l.length)
    {c : Comp V} (h : c.PtrOk) {j : Nat} (hj : j < c.n) : ∀ p ∈ (sortLineW sort c j).map Prod.fst,
    c.ptr j ≤ p ∧ p < c.ptr (j + 1) := by
  intro p hp
  unfold sortLineW at hp
  split at hp
  · simp at hp
  · rw [lineWrites_fst, hs, h.row_length hj] at hp
    simp only [List.mem_range'_1] at hp
    omega

theorem sortPassPtr_iff {dbg : Bool} {sort : List (Int × V) → List (Int × V)} (hs : ∀ l, (sort l).length = l.length)
    {c : Comp V} (h : c.PtrOk) (hm : c.Machine) (h16 : 16 * (c.data.length : Int) ≤ i64Max) (out : Except Fault (Comp V)) :
    SortPassPtr dbg sort c out ↔ ∃ wi wv, wi.Perm ((sortWrites sort c).map fun w => (w.1, w.2.1)) ∧
      wv.Perm ((sortWrites sort c).map fun w => (w.1, w.2.2)) ∧
      out = .ok ⟨c.n, c.m, c.indptr, applyWrites c.indices wi, applyWrites c.data wv⟩ := by
  let R : Nat → SortEv V := fun j => match sortLineP dbg sort c j with
    | .ok x => x
    | .error _ => ([], ([], []))
  have hR : ∀ j, j < c.n → sortLineP dbg sort c j = .ok (R j) ∧ (R j).2 = evOf (sortLineW sort c j) ∧
      ∀ p ∈ (R j).1, c.ptr j ≤ p ∧ p < c.ptr (j + 1) := by
    intro j hj
    obtain ⟨rs, g1, g2⟩ := sortLineP_eq (dbg := dbg) hs h hm h16 hj
    have e : R j = (rs, evOf (sortLineW sort c j)) := by show (match sortLineP dbg sort c j with | _ => _) = _; rw [g1]
    rw [e]
    exact ⟨g1, rfl, g2⟩
  have f1 : ∀ W : List (Nat × (Int × V)), (evOf W).1.map Prod.fst = W.map Prod.fst := fun W => by
    simp [evOf, List.map_map, Function.comp_def]
  have f2 : ∀ W : List (Nat × (Int × V)), (evOf W).2.map Prod.fst = W.map Prod.fst := fun W => by
    simp [evOf, List.map_map, Function.comp_def]
  have hw : ∀ j, j < c.n → (∀ p ∈ (R j).2.1.map Prod.fst, c.ptr j ≤ p ∧ p < c.ptr (j + 1)) ∧
      ∀ p ∈ (R j).2.2.map Prod.fst, c.ptr j ≤ p ∧ p < c.ptr (j + 1) := by
    intro j hj
    rw [(hR j hj).2.1, f1, f2]
    exact ⟨sortLineW_range hs h hj, sortLineW_range hs h hj⟩
  have hrace : raceFreeRW ((List.range c.n).map R) := by
    have sep : ∀ i j, i < j → j < c.n → c.ptr (i + 1) ≤ c.ptr j := fun i j hij hj =>
      h.ptr_mono' (by omega) (by omega)
    refine ⟨?_, ?_⟩
    · unfold raceFree
      rw [List.map_map, List.pairwise_map]
      refine List.pairwise_lt_range.imp_of_mem ?_
      intro i j _ hj hij
      have hj : j < c.n := by simpa using hj
      have := sep i j hij hj
      refine ⟨fun p hp hq => ?_, fun p hp hq => ?_⟩
      · have := (hw i (by omega)).1 p hp
        have := (hw j hj).1 p hq
        omega
      · have := (hw i (by omega)).2 p hp
        have := (hw j hj).2 p hq
        omega
    · rw [List.pairwise_map]
      refine List.pairwise_lt_range.imp_of_mem ?_
      intro i j _ hj hij
      have hj : j < c.n := by simpa using hj
      have := sep i j hij hj
      refine ⟨fun p hp => ⟨fun hq => ?_, fun hq => ?_⟩, fun p hp => ⟨fun hq => ?_, fun hq => ?_⟩⟩
      · have := (hR i (by omega)).2.2 p hp
        have := (hw j hj).1 p hq
        omega
      · have := (hR i (by omega)).2.2 p hp
        have := (hw j hj).2 p hq
        omega
      · have := (hR j hj).2.2 p hp
        have := (hw i (by omega)).1 p hq
        omega
      · have := (hR j hj).2.2 p hp
        have := (hw i (by omega)).2 p hq
        omega
  have e1 : ((List.range c.n).map R).flatMap (fun x => x.2.1) = (sortWrites sort c).map fun w => (w.1, w.2.1) := by
    unfold sortWrites
    rw [List.map_flatMap, List.flatMap_map]
    apply List.flatMap_congr
    intro j hj
    rw [(hR j (by simpa using hj)).2.1]
    rfl
  have e2 : ((List.range c.n).map R).flatMap (fun x => x.2.2) = (sortWrites sort c).map fun w => (w.1, w.2.2) := by
    unfold sortWrites
    rw [List.map_flatMap, List.flatMap_map]
    apply List.flatMap_congr
    intro j hj
    rw [(hR j (by simpa using hj)).2.1]
    rfl
  have hpc := parCollect_ok fun j hj => (hR j hj).1
  unfold SortPassPtr
  constructor
  · rintro ⟨oe, h1, h2⟩
    rw [(hpc oe).1 h1] at h2
    rcases h2 with ⟨h2, -⟩ | ⟨-, wi, wv, p1, p2, h3⟩
    · exact absurd hrace h2
    · rw [e1] at p1
      rw [e2] at p2
      exact ⟨wi, wv, p1, p2, h3⟩
  · rintro ⟨wi, wv, p1, p2, h3⟩
    exact ⟨_, (hpc _).2 rfl, .inr ⟨hrace, wi, wv, by rw [e1]; exact p1, by rw [e2]; exact p2, h3⟩⟩

theorem transposeBPtr_iff [Zero V] {dbg : Bool} {F : Nat} {sort : List (Int × V) → List (Int × V)}
    (hs : ∀ l, (sort l).length = l.length) {a : Comp V} (hw : a.WFU) (hm : a.Machine) (hf : a.Fits)
    (hl : 8 * ((a.m : Int) + 1) ≤ i64Max) (h16 : 16 * (a.data.length : Int) ≤ i64Max) (hF : a.data.length < F)
    (out : Except Fault (Comp V)) :
    TransposeBPtr dbg F sort a out ↔ ∃ r, TransposeBRun sort a r ∧ out = .ok r := by
  have hfill := atomicFillPtr_iff (dbg := dbg) hw hm hf hl (line := claimLine dbg F a) (fun i hi => by
    have h1 := hw.ptrOk.row_length hi
    have h2 := hw.ptrOk.ptr_le_data (i := i + 1) (by omega)
    exact claimLine_plan hw hm hi (by omega))
  have hsort : ∀ c, AtomicFillRun a c → (∀ o, SortPassPtr dbg sort c o ↔
      ∃ wi wv, wi.Perm ((sortWrites sort c).map fun w => (w.1, w.2.1)) ∧
      wv.Perm ((sortWrites sort c).map fun w => (w.1, w.2.2)) ∧
      o = .ok ⟨c.n, c.m, c.indptr, applyWrites c.indices wi, applyWrites c.data wv⟩) := by
    intro c hc o
    obtain ⟨sched, hsch, rfl⟩ := atomicFill_eq hw hf hc
    have hwc := tcomp_wfu hsch hf
    obtain ⟨_, _, -, -, -, -, hlen⟩ := claimAll_run hw hf hsch
    have d1 : (tcomp a sched).data.length = a.data.length := by
      simp only [tcomp, Comp.ofRows, List.length_map]; exact hlen.symm
    have d2 : (tcomp a sched).indices.length = a.data.length := by rw [← d1, hwc.data_length]
    have d3 : (tcomp a sched).indptr.length = a.m + 1 := by simp [tcomp, Comp.ofRows]
    have hdm := hm.data
    exact sortPassPtr_iff hs hwc.ptrOk ⟨by rw [d3]; push_cast; omega, by rw [d2]; exact hdm, by rw [d1]; exact hdm,
      fun j hj => hwc.i64 j hj⟩ (by rw [d1]; exact h16) o
  unfold TransposeBPtr TransposeBRun
  constructor
  · rintro ⟨o, h1, h2⟩
    obtain ⟨c, hc, rfl⟩ := (hfill o).1 h1
    obtain ⟨wi, wv, p1, p2, h3⟩ := (hsort c hc out).1 h2
    exact ⟨_, ⟨c, hc, wi, wv, p1, p2, rfl⟩, h3⟩
  · rintro ⟨r, ⟨c, hc, wi, wv, p1, p2, rfl⟩, rfl⟩
    exact ⟨.ok c, (hfill _).2 ⟨c, hc, rfl⟩, (hsort c hc _).2 ⟨wi, wv, p1, p2, rfl⟩⟩

end Lacuna
