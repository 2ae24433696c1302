import Verif.Lemmas.PtrTranspose
import Verif.Lemmas.PtrNd
import Verif.Lemmas.Cumulative
import Verif.Model.PtrCumulative
/-
The pointer-level cumulative kernels against the list-level ones.
-/
namespace Lacuna
variable {V : Type}

/-! ### loops over the entries of a line -/

/-- `while p < e { body; p += 1 }` over a slice is a fold, faults included. -/
theorem untilP_fold {σ α : Type} {body : Nat × σ → Except Fault (Nat × σ)} {f : σ → α → Except Fault σ}
    {base : Nat} (r : List α)
    (h : ∀ q (hq : q < r.length) s, body (base + q, s) = (f s r[q]).map fun s => (base + q + 1, s))
    (F : Nat) (hF : r.length < F) (s : σ) :
    untilP F (base + r.length) body (base, s) = (r.foldlM f s).map fun s => (base + r.length, s) := by
  suffices key : ∀ (k q F : Nat) (s : σ), q + k = r.length → k < F →
      untilP F (base + r.length) body (base + q, s) = ((r.drop q).foldlM f s).map fun s => (base + r.length, s) by
    have := key r.length 0 F s (by omega) hF
    simpa using this
  intro k
  induction k with
  | zero =>
    intro q F s hq hF
    obtain ⟨F, rfl⟩ : ∃ F', F = F' + 1 := ⟨F - 1, by omega⟩
    have hq' : q = r.length := by omega
    subst hq'
    unfold untilP
    rw [whileM_false (by show Except.ok (decide _) = _; simp), List.drop_length]
    rfl
  | succ k ih =>
    intro q F s hq hF
    obtain ⟨F, rfl⟩ : ∃ F', F = F' + 1 := ⟨F - 1, by omega⟩
    have hlt : q < r.length := by omega
    rw [List.drop_eq_getElem_cons hlt, List.foldlM_cons]
    have hb := h q hlt s
    cases hf : f s r[q] with
    | ok s' =>
      rw [hf] at hb
      have := ih (q + 1) F s' (by omega) (by omega)
      rw [ok_bind, ← this]
      unfold untilP
      rw [whileM_true (by show Except.ok (decide _) = _; simp [hlt]) hb]
      rfl
    | error x =>
      rw [hf] at hb
      unfold untilP
      rw [whileM]
      have : (decide (base + q < base + r.length)) = true := by simp [hlt]
      simp only [this, pure, Except.pure]
      rw [ok_bind, if_pos rfl, hb]
      rfl

theorem Comp.PtrOk.reads {a : Comp V} (h : a.PtrOk) {i : Nat} (hi : i < a.n) {q : Nat}
    (hq : q < (a.row i).length) :
    getUnchecked a.indices (a.ptr i + q) = .ok (a.row i)[q].1 ∧
      getUnchecked a.data (a.ptr i + q) = .ok (a.row i)[q].2 := by
  have hl := h.row_length hi
  have h1 := h.ptr_le_indices (i := i + 1) (by omega)
  have h2 := h.ptr_le_data (i := i + 1) (by omega)
  rw [getUnchecked_eq (by omega), getUnchecked_eq (by omega)]
  simp [Comp.row, Comp.entries]

/-! ### one row, entry by entry -/

/-- `cumsumBodyP` on a given entry. -/
def cumsumStepE [Add V] (dbg : Bool) (s : CumSt V) (e : Int × V) : Except Fault (CumSt V) := do
  let col ← i64ToUsizeP dbg e.1
  let out ← if col > s.prev then fillRangeP s.out s.prev col s.acc else pure s.out
  let out ← setUnchecked out col (s.acc + e.2)
  let prev ← addUsize dbg col 1
  pure ⟨out, prev, s.acc + e.2⟩

theorem cumsumBodyP_eq [Add V] {dbg : Bool} {a : Comp V} (h : a.PtrOk) {i : Nat} (hi : i < a.n) {q : Nat}
    (hq : q < (a.row i).length) (s : CumSt V) :
    cumsumBodyP dbg a (a.ptr i + q, s) = (cumsumStepE dbg s (a.row i)[q]).map fun s => (a.ptr i + q + 1, s) := by
  obtain ⟨r1, r2⟩ := h.reads hi hq
  unfold cumsumBodyP cumsumStepE
  simp only []
  rw [r1, r2, ok_bind]
  cases i64ToUsizeP dbg (a.row i)[q].1 with
  | error x => rfl
  | ok col =>
    simp only [ok_bind]
    have key : ∀ o : List V, (do
        let out ← setUnchecked o col (s.acc + (a.row i)[q].2)
        let prev ← addUsize dbg col 1
        pure (a.ptr i + q + 1, (⟨out, prev, s.acc + (a.row i)[q].2⟩ : CumSt V)) : Except Fault _) =
        Except.map (fun s => (a.ptr i + q + 1, s)) (do
        let out ← setUnchecked o col (s.acc + (a.row i)[q].2)
        let prev ← addUsize dbg col 1
        pure (⟨out, prev, s.acc + (a.row i)[q].2⟩ : CumSt V)) := by
      intro o
      cases setUnchecked o col (s.acc + (a.row i)[q].2) with
      | error x => rfl
      | ok out => simp only [ok_bind]; cases addUsize dbg col 1 <;> rfl
    by_cases hc : col > s.prev
    · rw [if_pos hc, if_pos hc]
      cases fillRangeP s.out s.prev col s.acc with
      | error x => rfl
      | ok o => exact key o
    · rw [if_neg hc, if_neg hc]
      exact key s.out

/-- The whole row. -/
def cumsumRowE [Zero V] [Add V] (dbg : Bool) (m : Nat) (row : List (Int × V)) (out : List V) :
    Except Fault (List V) := do
  let s ← row.foldlM (cumsumStepE dbg) ⟨out, 0, 0⟩
  if s.prev < m then fillRangeP s.out s.prev s.out.length s.acc else pure s.out

theorem cumsumRowP_eq [Zero V] [Add V] {dbg : Bool} {a : Comp V} (h : a.PtrOk) (hm : a.Machine) {i : Nat}
    (hi : i < a.n) {F : Nat} (hF : a.data.length < F) (out : List V) :
    cumsumRowP dbg F a (out, i) = cumsumRowE dbg a.m (a.row i) out := by
  have l1 := h.load hm dbg (i := i) (by omega)
  have l2 := h.load hm dbg (i := i + 1) (by omega)
  have hl := h.row_length hi
  have hmono := h.ptr_mono' (i := i) (j := i + 1) (by omega) (by omega)
  have hd := h.ptr_le_data (i := i + 1) (by omega)
  unfold cumsumRowP cumsumRowE
  simp only []
  rw [← bind_assoc, l1, ok_bind, ← bind_assoc, l2, ok_bind]
  have he : a.ptr (i + 1) = a.ptr i + (a.row i).length := by omega
  rw [he, untilP_fold (a.row i) (fun q hq s => cumsumBodyP_eq h hi hq s) F (by omega)]
  cases (a.row i).foldlM (cumsumStepE dbg) ⟨out, 0, 0⟩ <;> rfl

/-- `cumprodBodyP` on the entries from the current one on. -/
def cumprodRowE [Mul V] (dbg : Bool) : List (Int × V) → CumSt V → Except Fault (List V)
  | [], s => .ok s.out
  | e :: es, s => do
    let col ← i64ToUsizeP dbg e.1
    if col > s.prev then pure s.out
    else
      let out ← setUnchecked s.out col (s.acc * e.2)
      let prev ← addUsize dbg col 1
      cumprodRowE dbg es ⟨out, prev, s.acc * e.2⟩

theorem cumprodLoopP_eq [Mul V] {dbg : Bool} {a : Comp V} (h : a.PtrOk) {i : Nat} (hi : i < a.n) :
    ∀ (k q F : Nat) (s : CumSt V), q + k = (a.row i).length → k + 1 < F →
    (do let st ← whileM (fun s : Nat × CumSt V × Bool => pure (!s.2.2 && decide (s.1 < a.ptr (i + 1))))
          (cumprodBodyP dbg a) F (a.ptr i + q, s, false)
        pure st.2.1.out : Except Fault (List V)) = cumprodRowE dbg ((a.row i).drop q) s := by
  have hl := h.row_length hi
  have hmono := h.ptr_mono' (i := i) (j := i + 1) (by omega) (by omega)
  intro k
  induction k with
  | zero =>
    intro q F s hq hF
    obtain ⟨F, rfl⟩ : ∃ F', F = F' + 1 := ⟨F - 1, by omega⟩
    have hq' : q = (a.row i).length := by omega
    subst hq'
    rw [whileM_false (by
      show Except.ok (!false && decide (a.ptr i + _ < a.ptr (i + 1))) = _
      rw [decide_eq_false (by omega)]; rfl), List.drop_length]
    rfl
  | succ k ih =>
    intro q F s hq hF
    obtain ⟨F, rfl⟩ : ∃ F', F = F' + 1 := ⟨F - 1, by omega⟩
    have hlt : q < (a.row i).length := by omega
    rw [List.drop_eq_getElem_cons hlt]
    obtain ⟨r1, r2⟩ := h.reads hi hlt
    have hc : (pure (!(a.ptr i + q, s, false).2.2 && decide ((a.ptr i + q, s, false).1 < a.ptr (i + 1))) :
        Except Fault Bool) = .ok true := by
      show Except.ok (!false && decide (a.ptr i + q < a.ptr (i + 1))) = _
      rw [decide_eq_true (by omega)]; rfl
    rw [whileM, cumprodRowE]
    simp only []
    rw [hc, ok_bind, if_pos rfl]
    unfold cumprodBodyP
    simp only []
    rw [r1, r2, ok_bind]
    cases hx : i64ToUsizeP dbg (a.row i)[q].1 with
    | error x => rfl
    | ok col =>
      simp only [ok_bind]
      by_cases hp : col > s.prev
      · rw [if_pos hp, if_pos hp]
        obtain ⟨F, rfl⟩ : ∃ F', F = F' + 1 := ⟨F - 1, by omega⟩
        rw [show (pure (a.ptr i + q, s, true) : Except Fault (Nat × CumSt V × Bool)) = .ok (a.ptr i + q, s, true)
          from rfl, ok_bind, whileM_false (by show Except.ok (!true && _) = _; rfl)]
        rfl
      · rw [if_neg hp, if_neg hp]
        cases hs : setUnchecked s.out col (s.acc * (a.row i)[q].2) with
        | error x => rfl
        | ok out =>
          simp only [ok_bind]
          cases hu : addUsize dbg col 1 with
          | error x => rfl
          | ok prev =>
            simp only [ok_bind]
            have := ih (q + 1) F ⟨out, prev, s.acc * (a.row i)[q].2⟩ (by omega) (by omega)
            rw [← this]
            rfl

theorem cumprodRowP_eq [One V] [Mul V] {dbg : Bool} {a : Comp V} (h : a.PtrOk) (hm : a.Machine) {i : Nat}
    (hi : i < a.n) {F : Nat} (hF : a.data.length + 1 < F) (out : List V) :
    cumprodRowP dbg F a (out, i) = cumprodRowE dbg (a.row i) ⟨out, 0, 1⟩ := by
  have l1 := h.load hm dbg (i := i) (by omega)
  have l2 := h.load hm dbg (i := i + 1) (by omega)
  have hl := h.row_length hi
  have hmono := h.ptr_mono' (i := i) (j := i + 1) (by omega) (by omega)
  have hd := h.ptr_le_data (i := i + 1) (by omega)
  unfold cumprodRowP
  simp only []
  rw [← bind_assoc, l1, ok_bind, ← bind_assoc, l2, ok_bind]
  have := cumprodLoopP_eq (dbg := dbg) h hi (a.row i).length 0 F ⟨out, 0, 1⟩ (by omega) (by omega)
  simpa using this

/-! ### indices inside the chunk -/

/-- An index inside the chunk. -/
theorem cumsumStepE_ok [Add V] {dbg : Bool} {s : CumSt V} {e : Int × V} {L : Nat} (ho : s.out.length = L)
    (h0 : 0 ≤ e.1) (h1 : e.1 < L) (hL : (L : Int) ≤ i64Max) (hp : s.prev ≤ L) :
    ∃ s', cumsumStepE dbg s e = .ok s' ∧ cumsumStep s e = some s' ∧ s'.out.length = L ∧
      (s'.prev : Int) = e.1 + 1 := by
  have hc : i64ToUsize e.1 = e.1.toNat := i64ToUsize_of_nonneg h0 (by omega)
  unfold cumsumStepE cumsumStep
  rw [i64ToUsizeP_eq h0 (by omega), ok_bind]
  simp only []
  rw [hc, addUsize_eq (by unfold usizeMax; unfold i64Max at hL; omega)]
  have hset : ∀ o : List V, o.length = L → setUnchecked o e.1.toNat (s.acc + e.2) = .ok (o.set e.1.toNat (s.acc + e.2)) ∧
      setAt? o e.1.toNat (s.acc + e.2) = some (o.set e.1.toNat (s.acc + e.2)) := by
    intro o ho
    unfold setUnchecked setAt?
    rw [if_pos (by omega), if_pos (by omega)]
    exact ⟨rfl, rfl⟩
  by_cases hgt : e.1.toNat > s.prev
  · rw [if_pos hgt, if_pos hgt]
    unfold fillRangeP fillRange?
    rw [if_pos ⟨by omega, by omega⟩, if_pos ⟨by omega, by omega⟩, ok_bind, Option.bind_some]
    obtain ⟨h1, h2⟩ := hset (s.out.take s.prev ++ List.replicate (e.1.toNat - s.prev) s.acc ++ s.out.drop e.1.toNat)
      (by simp; omega)
    rw [h1, h2]
    refine ⟨_, rfl, rfl, ?_, ?_⟩
    · simp; omega
    · simp only []; omega
  · rw [if_neg hgt, if_neg hgt]
    obtain ⟨h1, h2⟩ := hset s.out ho
    rw [show (pure s.out : Except Fault (List V)) = .ok s.out from rfl, ok_bind, Option.bind_some, h1, h2]
    refine ⟨_, rfl, rfl, by simpa using ho, ?_⟩
    simp only []; omega

theorem cumsumFold_ok [Add V] {dbg : Bool} {L : Nat} (hL : (L : Int) ≤ i64Max) (es : List (Int × V)) :
    ∀ s : CumSt V, s.out.length = L → s.prev ≤ L → (∀ e ∈ es, 0 ≤ e.1 ∧ e.1 < L) →
    ∃ s', es.foldlM (cumsumStepE dbg) s = .ok s' ∧ es.foldlM cumsumStep s = some s' ∧ s'.out.length = L ∧
      s'.prev ≤ L ∧ ∀ e, es.getLast? = some e → (s'.prev : Int) = e.1 + 1 := by
  induction es with
  | nil => intro s ho hp _; exact ⟨s, rfl, rfl, ho, hp, by simp⟩
  | cons e es ih =>
    intro s ho hp hb
    obtain ⟨b0, b1⟩ := hb e (by simp)
    obtain ⟨s1, e1, e2, e3, e4⟩ := cumsumStepE_ok (dbg := dbg) ho b0 b1 hL hp
    obtain ⟨s2, f1, f2, f3, f4, f5⟩ := ih s1 e3 (by omega) (fun x hx => hb x (by simp [hx]))
    refine ⟨s2, ?_, ?_, f3, f4, ?_⟩
    · rw [List.foldlM_cons, e1, ok_bind, f1]
    · rw [List.foldlM_cons, e2]; exact f2
    · intro x hx
      cases es with
      | nil =>
        simp only [List.getLast?_singleton, Option.some.injEq] at hx
        subst hx
        cases f1
        exact e4
      | cons y ys => exact f5 x (by rw [← hx, List.getLast?_cons_cons])

theorem cumsumRowE_ok [Zero V] [Add V] {dbg : Bool} {m : Nat} {row : List (Int × V)} {out : List V}
    (ho : out.length = m) (hm : (m : Int) ≤ i64Max) (hb : ∀ e ∈ row, 0 ≤ e.1 ∧ e.1 < m) :
    ∃ y, cumsumRowE dbg m row out = .ok y ∧ cumsumRow m row out = some y ∧ y.length = m := by
  obtain ⟨s, e1, e2, e3, e4, _⟩ := cumsumFold_ok (dbg := dbg) hm row ⟨out, 0, 0⟩ ho (by simp) hb
  unfold cumsumRowE cumsumRow
  rw [e1, e2, ok_bind, Option.bind_some]
  unfold fillRangeP fillRange?
  by_cases h : s.prev < m
  · rw [if_pos h, if_pos h, if_pos ⟨by omega, by omega⟩, if_pos ⟨by omega, by omega⟩]
    exact ⟨_, rfl, rfl, by simp; omega⟩
  · rw [if_neg h, if_neg h]
    exact ⟨_, rfl, rfl, e3⟩

theorem cumprodRowE_ok [Mul V] {dbg : Bool} {L : Nat} (hL : (L : Int) ≤ i64Max) (es : List (Int × V)) :
    ∀ s : CumSt V, s.out.length = L → (∀ e ∈ es, 0 ≤ e.1 ∧ e.1 < L) →
    ∃ y, cumprodRowE dbg es s = .ok y ∧ cumprodLoop es s = some y ∧ y.length = L := by
  induction es with
  | nil => intro s ho _; exact ⟨s.out, rfl, rfl, ho⟩
  | cons e es ih =>
    intro s ho hb
    obtain ⟨b0, b1⟩ := hb e (by simp)
    have hc : i64ToUsize e.1 = e.1.toNat := i64ToUsize_of_nonneg b0 (by omega)
    rw [cumprodRowE, cumprodLoop, i64ToUsizeP_eq b0 (by omega), ok_bind, hc]
    by_cases hgt : e.1.toNat > s.prev
    · rw [if_pos hgt, if_pos hgt]; exact ⟨_, rfl, rfl, ho⟩
    · rw [if_neg hgt, if_neg hgt]
      unfold setUnchecked setAt?
      rw [if_pos (by omega), if_pos (by omega), ok_bind,
        addUsize_eq (by unfold usizeMax; unfold i64Max at hL; omega), ok_bind]
      exact ih _ (by simpa using ho) fun x hx => hb x (by simp [hx])

/-! ### an index one behind the end of the chunk -/

/-- After the last cell of the chunk was stored, an entry whose index is the length of the chunk is
stored behind its end. -/
theorem cumsumRowE_ub [Zero V] [Add V] {dbg : Bool} {m L : Nat} (hL : (L : Int) ≤ i64Max)
    {pre post : List (Int × V)} {x y : Int × V} (hpre : ∀ e ∈ pre, 0 ≤ e.1 ∧ e.1 < L) (hx : x.1 + 1 = L)
    (hx0 : 0 ≤ x.1) (hy : y.1 = L) {out : List V} (ho : out.length = L) :
    cumsumRowE dbg m (pre ++ x :: y :: post) out = .error .ub := by
  obtain ⟨s, e1, _, e3, e4, e5⟩ := cumsumFold_ok (dbg := dbg) hL (pre ++ [x]) ⟨out, 0, 0⟩ ho (by simp) (by
    intro e he
    rcases List.mem_append.1 he with he | he
    · exact hpre e he
    · rw [List.mem_singleton.1 he]; omega)
  have hp := e5 x (by simp)
  unfold cumsumRowE
  rw [show pre ++ x :: y :: post = (pre ++ [x]) ++ (y :: post) by simp, List.foldlM_append, e1, ok_bind,
    List.foldlM_cons]
  unfold cumsumStepE
  rw [i64ToUsizeP_eq (by omega) (by omega), ok_bind, if_neg (by omega)]
  unfold setUnchecked
  rw [show (pure s.out : Except Fault (List V)) = .ok s.out from rfl, ok_bind]
  simp only []
  rw [if_neg (by omega)]
  rfl

theorem cumprodRowE_ub [Mul V] {dbg : Bool} {L : Nat} (hL : (L : Int) ≤ i64Max) (es : List (Int × V)) :
    ∀ s : CumSt V, s.out.length = L → s.prev ≤ L → L - s.prev < es.length →
    (∀ q (h : q < es.length), s.prev + q ≤ L → (es[q].1 : Int) = s.prev + q) →
    cumprodRowE dbg es s = .error .ub := by
  induction es with
  | nil => intro s _ _ h _; simp at h
  | cons e es ih =>
    intro s ho hp hlen hk
    have h0 := hk 0 (by simp) (by omega)
    simp only [List.getElem_cons_zero] at h0
    rw [cumprodRowE, i64ToUsizeP_eq (by omega) (by omega), ok_bind, if_neg (by omega)]
    unfold setUnchecked
    by_cases hlt : s.prev < L
    · rw [if_pos (by omega), ok_bind, addUsize_eq (by unfold usizeMax; unfold i64Max at hL; omega), ok_bind]
      have e1 : e.1.toNat = s.prev := by omega
      rw [e1]
      refine ih _ (by simpa using ho) (by simp only []; omega) (by simp only [List.length_cons] at hlen; simp only []; omega) ?_
      intro q hq hle
      have := hk (q + 1) (by simpa using hq) (by simp only [] at hle; omega)
      simp only [List.getElem_cons_succ] at this
      rw [this]
      push_cast
      omega
    · rw [if_neg (by omega)]; rfl

/-! ### the frame -/

theorem zeroVecP_ok [Zero V] {n : Nat} (h : 8 * (n : Int) ≤ i64Max) :
    zeroVecP (V := V) n = .ok (List.replicate n 0) := if_pos h

theorem cumRowsPtr_iff [Zero V] {dbg : Bool} {a : Csr V} (hs : 8 * ((a.nrows * a.ncols : Nat) : Int) ≤ i64Max)
    {rowP : List V × Nat → Except Fault (List V)} {rowL : List (Int × V) → List V → Option (List V)}
    (h : ∀ i, i < a.nrows → ∃ y, rowP (List.replicate a.ncols 0, i) = .ok y ∧
      rowL (a.comp.row i) (List.replicate a.ncols 0) = some y) (out : Except Fault (List V)) :
    CumRowsPtr dbg a rowP out ↔ ∃ y, cumRows a rowL = some y ∧ out = .ok y := by
  have hu : a.nrows * a.ncols ≤ usizeMax := by unfold i64Max at hs; unfold usizeMax; omega
  unfold CumRowsPtr cumRows
  split
  · exact ⟨fun h => ⟨[], rfl, h⟩, fun ⟨y, h1, h2⟩ => by cases h1; exact h2⟩
  · rename_i h0
    rw [mulUsize_eq hu, ok_bind, zeroVecP_ok hs, wrapMul_eq hu]
    simp only []
    rw [chunksOf_replicate _ _ (by omega)]
    choose! g hg1 hg2 using h
    have hmem : ∀ c ∈ (List.replicate a.nrows (List.replicate a.ncols (0 : V))).zipIdx,
        c.1 = List.replicate a.ncols 0 ∧ c.2 < a.nrows := by
      rintro ⟨c, i⟩ hc
      have hc' := List.mem_zipIdx hc
      simp only [List.length_replicate, Nat.zero_add] at hc'
      exact ⟨by rw [hc'.2.2]; simp, hc'.2.1⟩
    rw [mapM_option_map (g := fun c : List V × Nat => g c.2) (by
      intro c hc
      obtain ⟨e1, e2⟩ := hmem c hc
      rw [e1]; exact hg2 _ e2)]
    have hp := parEach_ok (items := (List.replicate a.nrows (List.replicate a.ncols (0 : V))).zipIdx)
      (f := rowP) (g := fun c : List V × Nat => g c.2) (by
      rintro ⟨c, i⟩ hc
      obtain ⟨e1, e2⟩ := hmem _ hc
      simp only [] at e1 e2
      rw [e1]; exact hg1 _ e2)
    constructor
    · rintro ⟨oe, h1, rfl⟩
      rw [(hp oe).1 h1]
      exact ⟨_, rfl, rfl⟩
    · rintro ⟨y, h1, rfl⟩
      cases h1
      exact ⟨_, (hp _).2 rfl, rfl⟩

/-- The dense transposition. -/
theorem transposeDenseP_eq [Zero V] {dbg : Bool} {input : List V} {rows cols : Nat}
    (hl : input.length = rows * cols) (hs : 8 * ((rows * cols : Nat) : Int) ≤ i64Max) :
    ∃ y, transposeDenseP dbg input rows cols = .ok y ∧ transposeDense input rows cols = some y := by
  have hu : rows * cols ≤ usizeMax := by unfold i64Max at hs; unfold usizeMax; omega
  unfold transposeDenseP transposeDense
  rw [mulUsize_eq hu, ok_bind, zeroVecP_ok hs, ok_bind, wrapMul_eq hu]
  have key : ∀ (ps : List (Nat × Nat)) (buf : List V), buf.length = rows * cols →
      (∀ p ∈ ps, p.1 < rows ∧ p.2 < cols) →
      ∃ y, ps.foldlM (transposeDenseStepP dbg input rows cols) buf = .ok y ∧
        ps.foldlM (fun out p => (input[p.1 * cols + p.2]?).bind fun v => setAt? out (p.2 * rows + p.1) v) buf =
          some y := by
    intro ps
    induction ps with
    | nil => intro buf _ _; exact ⟨buf, rfl, rfl⟩
    | cons q ps ih =>
      intro buf hb hps
      obtain ⟨q1, q2⟩ := hps q (by simp)
      have hin : q.1 * cols + q.2 < rows * cols := mul_add_lt q1 q2
      have hout : q.2 * rows + q.1 < rows * cols := by rw [Nat.mul_comm rows]; exact mul_add_lt q2 q1
      obtain ⟨y, y1, y2⟩ := ih (buf.set (q.2 * rows + q.1) (input[q.1 * cols + q.2]'(by omega))) (by simpa using hb)
        fun p hp => hps p (by simp [hp])
      refine ⟨y, ?_, ?_⟩
      · rw [List.foldlM_cons]
        unfold transposeDenseStepP
        rw [mulUsize_eq (by omega), ok_bind, addUsize_eq (by omega), ok_bind, getUnchecked_eq (by omega), ok_bind,
          mulUsize_eq (by omega), ok_bind, addUsize_eq (by omega), ok_bind]
        unfold setUnchecked
        rw [if_pos (by omega), ok_bind]
        exact y1
      · rw [List.foldlM_cons, List.getElem?_eq_getElem (by omega), Option.bind_some]
        unfold setAt?
        rw [if_pos (by omega)]
        exact y2
  exact key _ _ (by simp) (by
    intro p hp
    simp only [List.mem_flatMap, List.mem_map, List.mem_range] at hp
    obtain ⟨r, hr, c, hc, rfl⟩ := hp
    exact ⟨hr, hc⟩)

end Lacuna
