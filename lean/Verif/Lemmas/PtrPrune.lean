import Verif.Model.PtrPrune
import Verif.Lemmas.Prune
import Verif.Lemmas.PtrDriver
import Verif.Lemmas.PtrSimd
import Verif.Lemmas.PtrConvert
namespace Lacuna
variable {V : Type}

/-! ### slices, windows, lines -/

theorem sliceP_ok {α : Type} {v : List α} {s e : Nat} (h : s ≤ e) (h' : e ≤ v.length) :
    sliceP v s e = .ok ((v.take e).drop s) := by
  unfold sliceP; rw [if_pos ⟨h, h'⟩]

theorem Comp.row_snd {a : Comp V} {i : Nat} (h1 : a.ptr (i + 1) ≤ a.indices.length)
    (h2 : a.ptr (i + 1) ≤ a.data.length) :
    (a.row i).map Prod.snd = (a.data.take (a.ptr (i + 1))).drop (a.ptr i) := by
  apply List.ext_getElem
  · simp [Comp.row, Comp.entries]; omega
  · intro k h3 h4
    simp [Comp.row, Comp.entries]

theorem Comp.row_fst {a : Comp V} {i : Nat} (h1 : a.ptr (i + 1) ≤ a.indices.length)
    (h2 : a.ptr (i + 1) ≤ a.data.length) :
    (a.row i).map Prod.fst = (a.indices.take (a.ptr (i + 1))).drop (a.ptr i) := by
  apply List.ext_getElem
  · simp [Comp.row, Comp.entries]; omega
  · intro k h3 h4
    simp [Comp.row, Comp.entries]

/-- Window `i` lies inside an array of `len` entries. -/
structure WinOk (a : Comp V) (len i : Nat) : Prop where
  nonneg : 0 ≤ a.indptr.getD i 0
  mono : a.indptr.getD i 0 ≤ a.indptr.getD (i + 1) 0
  last : a.indptr.getD (i + 1) 0 ≤ len

namespace WinOk
variable {a : Comp V} {len i : Nat}

theorem ptr_le (h : WinOk a len i) : a.ptr (i + 1) ≤ len := by
  have := h.last
  unfold Comp.ptr; omega
theorem ptr_mono (h : WinOk a len i) : a.ptr i ≤ a.ptr (i + 1) := by
  have := h.mono
  unfold Comp.ptr; omega
theorem mono_len (h : WinOk a len i) {l : Nat} (hl : len ≤ l) : WinOk a l i :=
  ⟨h.nonneg, h.mono, by have := h.last; omega⟩
end WinOk

theorem windowP_eq {a : Comp V} {len i : Nat} (h : WinOk a len i) (hl : (len : Int) ≤ i64Max) (dbg : Bool)
    (hi : i < windowsLen a) : windowP dbg a i = .ok (a.ptr i, a.ptr (i + 1)) := by
  unfold windowsLen at hi
  have h1 := h.nonneg
  have h2 := h.mono
  have h3 := h.last
  unfold windowP
  rw [index_eq (by omega), ok_bind]
  have e1 : a.indptr[i]'(by omega) = a.indptr.getD i 0 := by
    rw [List.getD_eq_getElem?_getD, List.getElem?_eq_getElem (by omega)]; rfl
  have e2 : a.indptr[i + 1]'(by omega) = a.indptr.getD (i + 1) 0 := by
    rw [List.getD_eq_getElem?_getD, List.getElem?_eq_getElem (by omega)]; rfl
  rw [e1, i64ToUsizeP_eq h1 (by omega), ok_bind, index_eq (by omega), ok_bind, e2,
    i64ToUsizeP_eq (by omega) (by omega), ok_bind]
  rfl

/-! ### the sequential copy into fresh buffers -/

theorem fillWrites_eq {α : Type} (s : Nat) (outs : List (List α)) :
    fillWrites (ptrFrom s (outs.map List.length)) outs = lineWrites s outs.flatten := by
  induction outs generalizing s with
  | nil => simp [fillWrites, ptrFrom, lineWrites]
  | cons o os ih =>
    have e : fillWrites (ptrFrom s ((o :: os).map List.length)) (o :: os)
        = lineWrites s o ++ fillWrites (ptrFrom (s + o.length) (os.map List.length)) os := by
      simp [fillWrites, ptrFrom]
    rw [e, ih, List.flatten_cons, lineWrites_append]

section
variable [HasLt V] [HasAbs V]

theorem copySig_length_le (eps : V) (r : Row V) : (copySig eps r).length ≤ r.length :=
  List.length_filter_le _ _

theorem pruneCountP_eq {a : Comp V} {i : Nat} {dbg : Bool} {F : Nat} {eps : V} (h : WinOk a a.data.length i)
    (hd : 8 * (a.data.length : Int) ≤ i64Max) (hi : i < windowsLen a) (hF : a.data.length < F) :
    pruneCountP dbg F eps a i
      = .ok (((a.data.take (a.ptr (i + 1))).drop (a.ptr i)).countP (significant eps)) := by
  unfold pruneCountP
  rw [windowP_eq h (by omega) dbg hi, ok_bind]
  simp only []
  rw [sliceP_ok h.ptr_mono h.ptr_le, ok_bind,
    countSigP_eq F eps _ (by simp; unfold usizeMax; unfold i64Max at hd; omega) (by simp; omega)]
  rfl

theorem copySig_length {a : Comp V} {i : Nat} (eps : V) (h1 : a.ptr (i + 1) ≤ a.indices.length)
    (h2 : a.ptr (i + 1) ≤ a.data.length) :
    (copySig eps (a.row i)).length
      = ((a.data.take (a.ptr (i + 1))).drop (a.ptr i)).countP (significant eps) := by
  rw [← Comp.row_snd h1 h2, List.countP_map, List.countP_eq_length_filter]
  rfl

/-! ### the parallel fill -/

theorem pruneFillStep_foldlM {dbg : Bool} {eps : V} {a : Comp V} {nnz : Nat} (hnn : (nnz : Int) ≤ i64Max) :
    ∀ (l : Row V) (s d : Nat) (w : Stores V),
    (∀ k (h : k < l.length), a.indices[s + k]? = some l[k].1 ∧ a.data[s + k]? = some l[k].2) →
    d + (copySig eps l).length ≤ nnz →
    (List.range' s l.length).foldlM (pruneFillStep dbg eps a nnz) (d, w)
      = .ok (d + (copySig eps l).length,
          w.1 ++ lineWrites d ((copySig eps l).map Prod.fst), w.2 ++ lineWrites d ((copySig eps l).map Prod.snd)) := by
  intro l
  induction l with
  | nil => intro s d w _ _; simp [copySig, lineWrites]; rfl
  | cons x l ih =>
    intro s d w h hc
    obtain ⟨x1, x2⟩ := h 0 (by simp)
    simp only [Nat.add_zero, List.getElem_cons_zero] at x1 x2
    have hl : ∀ k (hk : k < l.length), a.indices[(s + 1) + k]? = some l[k].1 ∧ a.data[(s + 1) + k]? = some l[k].2 := by
      intro k hk
      have := h (k + 1) (by simp; omega)
      rw [show s + 1 + k = s + (k + 1) by omega]
      simpa using this
    obtain ⟨g1, g1'⟩ := List.getElem?_eq_some_iff.1 x1
    obtain ⟨g2, g2'⟩ := List.getElem?_eq_some_iff.1 x2
    rw [List.length_cons, List.range'_succ, List.foldlM_cons]
    by_cases hs : significant eps x.2
    · have hcs : copySig eps (x :: l) = x :: copySig eps l := by simp [copySig, hs]
      rw [hcs, List.length_cons] at hc
      have hadd : MutPtr.add ⟨nnz, 0⟩ d = .ok ⟨nnz, d⟩ := by
        unfold MutPtr.add; simp only [Nat.zero_add]; rw [if_pos (by omega)]
      have step : pruneFillStep dbg eps a nnz (d, w) s = .ok (d + 1, w.1 ++ [(d, x.1)], w.2 ++ [(d, x.2)]) := by
        unfold pruneFillStep
        rw [asPtr_get g2, ok_bind, g2', if_pos hs, hadd, ok_bind, asPtr_get g1, ok_bind, g1']
        unfold MutPtr.write
        rw [if_pos (show d < nnz by omega), ok_bind, ok_bind, if_pos (show d < nnz by omega), ok_bind,
          addUsize_eq' (by push_cast; omega), ok_bind]
        rfl
      rw [step, ok_bind, ih (s + 1) (d + 1) _ hl (by omega), hcs]
      simp [lineWrites, Nat.add_comm, Nat.add_left_comm]
    · have hcs : copySig eps (x :: l) = copySig eps l := by simp [copySig, hs]
      rw [hcs] at hc
      have step : pruneFillStep dbg eps a nnz (d, w) s = .ok (d, w) := by
        unfold pruneFillStep
        rw [asPtr_get g2, ok_bind, g2', if_neg hs]; rfl
      rw [step, ok_bind, ih (s + 1) d w hl hc, hcs]

theorem pruneFillP_eq {dbg : Bool} {eps : V} {a : Comp V} {ptr : List Int} {nnz i st : Nat}
    (h : WinOk a a.data.length i) (hx : a.ptr (i + 1) ≤ a.indices.length) (hd : 8 * (a.data.length : Int) ≤ i64Max)
    (hi : i < windowsLen a) (hnn : (nnz : Int) ≤ i64Max) (hp : ptr[i]? = some (st : Int))
    (hc : st + (copySig eps (a.row i)).length ≤ nnz) :
    pruneFillP dbg eps a ptr nnz i = .ok (storesAt st (copySig eps (a.row i))) := by
  unfold pruneFillP
  obtain ⟨g, g'⟩ := List.getElem?_eq_some_iff.1 hp
  have hm := h.ptr_mono
  have hl := h.ptr_le
  rw [windowP_eq h (by omega) dbg hi, ok_bind]
  simp only []
  rw [asPtr_get g, ok_bind, g', i64ToUsizeP_eq (by omega) (by omega), ok_bind]
  have hlen : (a.row i).length = a.ptr (i + 1) - a.ptr i := by
    simp [Comp.row, Comp.entries]; omega
  rw [← hlen, show ((st : Int).toNat) = st by omega, pruneFillStep_foldlM hnn (a.row i) _ _ _ ?_ hc, ok_bind]
  · simp [storesAt]; rfl
  · intro k hk
    rw [hlen] at hk
    rw [List.getElem?_eq_getElem (by omega), List.getElem?_eq_getElem (by omega)]
    simp [Comp.row, Comp.entries]

/-! ### counts and plan -/

/-- Number of entries of window `i` that are kept. -/
def pruneCnt (eps : V) (a : Comp V) (i : Nat) : Nat :=
  ((a.data.take (a.ptr (i + 1))).drop (a.ptr i)).countP (significant eps)

theorem pruneCnt_past {eps : V} {a : Comp V} {i : Nat} (hi : windowsLen a ≤ i) : pruneCnt eps a i = 0 := by
  unfold windowsLen at hi
  have : a.ptr (i + 1) = 0 := by
    unfold Comp.ptr
    rw [List.getD_eq_getElem?_getD, List.getElem?_eq_none (by omega)]; rfl
  simp [pruneCnt, this]

theorem pruneCnt_le {eps : V} {a : Comp V} {i : Nat} : pruneCnt eps a i ≤ a.ptr (i + 1) - a.ptr i := by
  refine Nat.le_trans List.countP_le_length ?_
  simp; omega

theorem pruneCnt_sum {eps : V} {a : Comp V} (hw : ∀ i, i < min a.n (windowsLen a) → WinOk a a.data.length i) :
    ∀ k, k ≤ a.n → (((List.range a.n).map (pruneCnt eps a)).take k).sum ≤ a.data.length := by
  have key : ∀ k, k ≤ a.n → (((List.range a.n).map (pruneCnt eps a)).take k).sum + a.ptr 0
      ≤ a.ptr (min k (windowsLen a)) := by
    intro k
    induction k with
    | zero => intro _; simp
    | succ k ih =>
      intro hk
      have h1 := ih (by omega)
      rw [List.take_succ_eq_append_getElem (by simp; omega), List.sum_append]
      simp only [List.getElem_map, List.getElem_range, List.sum_cons, List.sum_nil]
      by_cases hkw : k < windowsLen a
      · have h2 := pruneCnt_le (eps := eps) (a := a) (i := k)
        have h3 := (hw k (by omega)).ptr_mono
        rw [show min k (windowsLen a) = k by omega] at h1
        rw [show min (k + 1) (windowsLen a) = k + 1 by omega]
        omega
      · rw [pruneCnt_past (by omega)]
        rw [show min k (windowsLen a) = windowsLen a by omega] at h1
        rw [show min (k + 1) (windowsLen a) = windowsLen a by omega]
        omega
  intro k hk
  have h1 := key k hk
  by_cases h0 : min k (windowsLen a) = 0
  · rw [h0] at h1; omega
  · have := (hw (min k (windowsLen a) - 1) (by omega)).ptr_le
    rw [show min k (windowsLen a) - 1 + 1 = min k (windowsLen a) by omega] at this
    omega

theorem zerosP_ok {n : Nat} (h : 8 * (n : Int) ≤ i64Max) : zerosP n = .ok (List.replicate n 0) := by
  unfold zerosP; rw [if_pos h]

theorem prunePlanP_eq {dbg : Bool} {eps : V} {a : Comp V} (hd : 8 * (a.data.length : Int) ≤ i64Max)
    (hn : 8 * ((a.n + 1 : Nat) : Int) ≤ i64Max)
    (hw : ∀ i, i < min a.n (windowsLen a) → WinOk a a.data.length i) :
    prunePlanP dbg a ((List.range a.n).map (pruneCnt eps a))
      = .ok (prefixPtr ((List.range a.n).map (pruneCnt eps a)), ((List.range a.n).map (pruneCnt eps a)).sum) := by
  have hs := pruneCnt_sum (eps := eps) hw
  generalize hC : (List.range a.n).map (pruneCnt eps a) = counts at hs
  have hlen : counts.length = a.n := by rw [← hC]; simp
  have ht := hs a.n (Nat.le_refl _)
  rw [List.take_of_length_le (by omega)] at ht
  have hP : ptrLoopP dbg 0 counts = .ok (prefixPtr counts) :=
    ptrLoopP_eq (dbg := dbg) counts 0 (by simp; omega)
  have hl : a.n < (prefixPtr counts).length := by simp; omega
  have hg := prefixPtr_getD counts a.n (by omega)
  rw [List.getD_eq_getElem?_getD, List.getElem?_eq_getElem hl, List.take_of_length_le (by omega)] at hg
  unfold prunePlanP
  rw [addUsize_eq' (by omega), ok_bind, zerosP_ok hn, ok_bind, hP, ok_bind, index_eq hl, ok_bind,
    show (prefixPtr counts)[a.n] = ((counts.sum : Nat) : Int) from hg,
    i64ToUsizeP_eq (by omega) (by omega), ok_bind]
  rw [zerosP_ok (by omega), ok_bind]
  rfl

/-- If the windows of the counting pass are inside `data`, the counting pass and the plan
succeed. -/
theorem pruneLarge_plan [Zero V] {dbg : Bool} {F : Nat} {eps : V} {a : Comp V}
    (hd : 8 * (a.data.length : Int) ≤ i64Max) (hn : 8 * ((a.n + 1 : Nat) : Int) ≤ i64Max) (hF : a.data.length < F)
    (hw : ∀ i, i < min a.n (windowsLen a) → WinOk a a.data.length i) (out : Except Fault (Comp V)) :
    PruneLargePtr dbg F eps a out ↔
      ∃ oe, ParCollect (windowsLen a) (pruneFillP dbg eps a (prefixPtr ((List.range a.n).map (pruneCnt eps a)))
          ((List.range a.n).map (pruneCnt eps a)).sum) oe ∧
        match oe with
        | .error x => out = .error x
        | .ok evs => Assemble ((List.range a.n).map (pruneCnt eps a)).sum evs
            (fun ix vs => (⟨a.n, a.m, prefixPtr ((List.range a.n).map (pruneCnt eps a)), ix, vs⟩ : Comp V)) out := by
  have hcount : ∀ i, i < min a.n (windowsLen a) → pruneCountP dbg F eps a i = .ok (pruneCnt eps a i) :=
    fun i hi => pruneCountP_eq (hw i hi) hd (by omega) hF
  have hpad : (List.range (min a.n (windowsLen a))).map (pruneCnt eps a)
      ++ List.replicate (a.n - ((List.range (min a.n (windowsLen a))).map (pruneCnt eps a)).length) 0
      = (List.range a.n).map (pruneCnt eps a) := by
    apply List.ext_getElem
    · simp
    · intro k h1 h2
      simp only [List.length_map, List.length_range] at h2
      rw [List.getElem_append]
      split
      · simp
      · rename_i hk
        simp only [List.length_map, List.length_range] at hk
        rw [List.getElem_replicate, List.getElem_map, List.getElem_range, pruneCnt_past (by omega)]
  unfold PruneLargePtr
  rw [zerosP_ok (by omega)]
  simp only []
  constructor
  · rintro ⟨oc, hoc, h⟩
    rw [parCollect_ok hcount] at hoc
    subst hoc
    simp only [hpad, prunePlanP_eq (dbg := dbg) hd hn hw] at h
    exact h
  · intro h
    refine ⟨_, (parCollect_ok hcount _).2 rfl, ?_⟩
    simp only [hpad, prunePlanP_eq (dbg := dbg) hd hn hw]
    exact h

theorem pruneOuts_length {eps : V} {a : Comp V}
    (hx : ∀ i, i < min a.n (windowsLen a) → a.ptr (i + 1) ≤ a.indices.length)
    (hw : ∀ i, i < min a.n (windowsLen a) → WinOk a a.data.length i) :
    (List.range a.n).map (pruneCnt eps a) = (pruneOuts eps a).map List.length := by
  unfold pruneOuts
  rw [List.map_map]
  refine List.map_congr_left fun i hi => ?_
  have hi := List.mem_range.1 hi
  show _ = (copySig eps (a.row i)).length
  by_cases hk : i < windowsLen a
  · rw [copySig_length eps (hx i (by omega)) (hw i (by omega)).ptr_le]; rfl
  · have h0 := pruneCnt_past (eps := eps) (a := a) (i := i) (by omega)
    have : a.ptr (i + 1) = 0 := by
      unfold windowsLen at hk
      unfold Comp.ptr
      rw [List.getD_eq_getElem?_getD, List.getElem?_eq_none (by omega)]; rfl
    rw [h0]
    simp [Comp.row, copySig, this]

theorem pruneOuts_past {eps : V} {a : Comp V} {i : Nat} (hi : windowsLen a ≤ i) : copySig eps (a.row i) = [] := by
  have : a.ptr (i + 1) = 0 := by
    unfold windowsLen at hi
    unfold Comp.ptr
    rw [List.getD_eq_getElem?_getD, List.getElem?_eq_none (by omega)]; rfl
  simp [Comp.row, copySig, this]

/-- The fill of a window inside both arrays. -/
theorem pruneFill_ok {dbg : Bool} {eps : V} {a : Comp V} (hd : 8 * (a.data.length : Int) ≤ i64Max)
    (hx : ∀ i, i < min a.n (windowsLen a) → a.ptr (i + 1) ≤ a.indices.length)
    (hw : ∀ i, i < min a.n (windowsLen a) → WinOk a a.data.length i) :
    ∀ i, i < min a.n (windowsLen a) →
      pruneFillP dbg eps a (prefixPtr ((List.range a.n).map (pruneCnt eps a)))
          ((List.range a.n).map (pruneCnt eps a)).sum i
        = .ok (storesAt ((((List.range a.n).map (pruneCnt eps a)).take i).sum) (copySig eps (a.row i))) := by
  intro i hi
  have hs := pruneCnt_sum (eps := eps) hw
  have hc : (copySig eps (a.row i)).length = pruneCnt eps a i :=
    copySig_length eps (hx i hi) (hw i hi).ptr_le
  generalize hC : (List.range a.n).map (pruneCnt eps a) = counts at hs
  have hlen : counts.length = a.n := by rw [← hC]; simp
  have ht := hs a.n (Nat.le_refl _)
  rw [List.take_of_length_le (by omega)] at ht
  refine pruneFillP_eq (hw i hi) (hx i hi) hd (by omega) (by omega) ?_ ?_
  · have hl : i < (prefixPtr counts).length := by simp; omega
    have hg := prefixPtr_getD counts i (by omega)
    rw [List.getD_eq_getElem?_getD, List.getElem?_eq_getElem hl] at hg
    rw [List.getElem?_eq_getElem hl]
    exact congrArg some hg
  · have e1 : (counts.take (i + 1)).sum + (counts.drop (i + 1)).sum = counts.sum := by
      rw [← List.sum_append, List.take_append_drop]
    have e2 : (counts.take (i + 1)).sum = (counts.take i).sum + pruneCnt eps a i := by
      rw [List.take_succ_eq_append_getElem (by omega), List.sum_append]
      simp [← hC]
    omega

theorem flatMap_range_ext {α : Type} {f : Nat → List α} {k n : Nat}
    (h : ∀ i, min k n ≤ i → i < max k n → f i = []) : (List.range k).flatMap f = (List.range n).flatMap f := by
  have key : ∀ (p q : Nat), p ≤ q → (∀ i, p ≤ i → i < q → f i = []) →
      (List.range q).flatMap f = (List.range p).flatMap f := by
    intro p q hpq hf
    have hsplit : List.range q = List.range p ++ (List.range (q - p)).map (p + ·) := by
      rw [← List.range_add]; congr 1; omega
    rw [hsplit, List.flatMap_append]
    have : ((List.range (q - p)).map (p + ·)).flatMap f = [] := by
      rw [List.flatMap_eq_nil_iff]
      intro i hi
      obtain ⟨j, hj, rfl⟩ := List.mem_map.1 hi
      exact hf _ (by omega) (by have := List.mem_range.1 hj; omega)
    rw [this, List.append_nil]
  rcases Nat.le_total k n with hkn | hkn
  · exact (key k n hkn fun i h1 h2 => h i (by omega) (by omega)).symm
  · exact key n k hkn fun i h1 h2 => h i (by omega) (by omega)

/-- The result assembled from the stores of the first `k` windows, if the others store nothing. -/
theorem pruneAssemble [Zero V] {eps : V} {a : Comp V} {counts : List Nat} {k : Nat}
    (hlens : counts = (pruneOuts eps a).map List.length)
    (hk : ∀ i, min k a.n ≤ i → i < max k a.n → copySig eps (a.row i) = []) (o : Except Fault (Comp V)) :
    Assemble counts.sum ((List.range k).map fun i => storesAt (counts.take i).sum (copySig eps (a.row i)))
      (fun ix vs => (⟨a.n, a.m, prefixPtr counts, ix, vs⟩ : Comp V)) o
      ↔ o = .ok (Comp.ofRows a.m (pruneOuts eps a)) := by
  have hol : (pruneOuts eps a).length = a.n := by simp [pruneOuts]
  have hcl : counts.length = a.n := by rw [hlens, List.length_map, hol]
  have hflat : ∀ {α : Type} (f : Int × V → α),
      ((List.range k).flatMap fun i => lineWrites (counts.take i).sum ((copySig eps (a.row i)).map f))
        = (lineWrites 0 (pruneOuts eps a).flatten).map fun w => (w.1, f w.2) := by
    intro α f
    have e0 : ((pruneOuts eps a).map (·.map f)).map List.length = counts := by simp [hlens]
    have e1 : (lineWrites 0 (pruneOuts eps a).flatten).map (fun w => (w.1, f w.2))
        = lineWrites 0 ((pruneOuts eps a).map (·.map f)).flatten := by
      rw [← List.map_flatten]
      exact lineWrites_map' 0 _ f
    rw [e1, ← fillWrites_eq, e0, flatMap_range_ext (n := a.n) (fun i h1 h2 => by rw [hk i h1 h2]; rfl)]
    unfold pruneOuts
    rw [List.map_map, fillWrites_range _ _ _ (by simp; omega), List.flatMap_def, List.flatMap_def]
    refine congrArg List.flatten (List.map_congr_left fun i hi => ?_)
    have := List.mem_range.1 hi
    rw [ptrFrom_getD 0 counts i (by omega), Nat.zero_add]
    rfl
  rw [assemble_iff (ws := lineWrites 0 (pruneOuts eps a).flatten) (flat := (pruneOuts eps a).flatten)
    (List.Perm.of_eq ?_) (List.Perm.of_eq ?_) (List.Perm.refl _) ?_]
  · unfold Comp.ofRows
    rw [← hlens, hol]
  · rw [← hflat Prod.fst, List.flatMap_map]; rfl
  · rw [← hflat Prod.snd, List.flatMap_map]; rfl
  · rw [List.length_flatten, hlens]

/-- The parallel path with windows inside both arrays, at most as many as lines. -/
theorem pruneLargePtr_iff [Zero V] {dbg : Bool} {F : Nat} {eps : V} {a : Comp V}
    (hd : 8 * (a.data.length : Int) ≤ i64Max) (hn : 8 * ((a.n + 1 : Nat) : Int) ≤ i64Max) (hF : a.data.length < F)
    (hW : windowsLen a ≤ a.n)
    (hx : ∀ i, i < windowsLen a → a.ptr (i + 1) ≤ a.indices.length)
    (hw : ∀ i, i < windowsLen a → WinOk a a.data.length i) (out : Except Fault (Comp V)) :
    PruneLargePtr dbg F eps a out ↔ out = .ok (Comp.ofRows a.m (pruneOuts eps a)) := by
  have hmin : min a.n (windowsLen a) = windowsLen a := by omega
  rw [pruneLarge_plan hd hn hF (by rw [hmin]; exact hw)]
  have hfill := pruneFill_ok (dbg := dbg) (eps := eps) hd (by rw [hmin]; exact hx) (by rw [hmin]; exact hw)
  rw [hmin] at hfill
  have hlens := pruneOuts_length (eps := eps) (by rw [hmin]; exact hx) (by rw [hmin]; exact hw)
  generalize hC : (List.range a.n).map (pruneCnt eps a) = counts at hfill hlens
  have hcl : counts.length = a.n := by rw [← hC]; simp
  have hass : ∀ o, Assemble counts.sum
      ((List.range (windowsLen a)).map fun i => storesAt (counts.take i).sum (copySig eps (a.row i)))
      (fun ix vs => (⟨a.n, a.m, prefixPtr counts, ix, vs⟩ : Comp V)) o
      ↔ o = .ok (Comp.ofRows a.m (pruneOuts eps a)) :=
    pruneAssemble hlens fun i h1 _ => pruneOuts_past (by omega)
  constructor
  · rintro ⟨oe, hoe, h⟩
    rw [parCollect_ok hfill] at hoe
    subst hoe
    exact (hass out).1 h
  · intro h
    exact ⟨_, (parCollect_ok hfill _).2 rfl, (hass out).2 h⟩

/-! ### the sequential path -/

theorem foldlM_range {σ : Type} {f : σ → Nat → Except Fault σ} {g : Nat → σ} (n : Nat)
    (h : ∀ k, k < n → f (g k) k = .ok (g (k + 1))) : (List.range n).foldlM f (g 0) = .ok (g n) := by
  induction n with
  | zero => rfl
  | succ n ih =>
    rw [List.range_succ, List.foldlM_append, ih fun k hk => h k (by omega), ok_bind, List.foldlM_cons,
      h n (by omega), ok_bind]
    rfl

/-- The pointers after `k` steps of the counting loop. -/
def ptrUpTo (counts : List Nat) (n k : Nat) : List Int := prefixPtr (counts.take k) ++ List.replicate (n - k) 0

theorem ptrUpTo_zero (counts : List Nat) (n : Nat) : ptrUpTo counts n 0 = List.replicate (n + 1) 0 := by
  simp [ptrUpTo, prefixPtr, ptrFrom, List.replicate_succ]

theorem prefixPtr_snoc (cs : List Nat) (c : Nat) :
    prefixPtr (cs ++ [c]) = prefixPtr cs ++ [((cs.sum + c : Nat) : Int)] := by
  have h : ∀ s, ptrFrom s (cs ++ [c]) = ptrFrom s cs ++ [s + (cs.sum + c)] := by
    induction cs with
    | nil => intro s; simp [ptrFrom]
    | cons x xs ih => intro s; simp [ptrFrom, ih]; omega
  simp [prefixPtr, h]

theorem pruneCountStep_eq {dbg : Bool} {F : Nat} {eps : V} {a : Comp V} {counts : List Nat} {k : Nat}
    (hlen : counts.length = a.n) (hk : k < a.n) (hc : pruneCountP dbg F eps a k = .ok (counts[k]'(by omega)))
    (hs : (((counts.take (k + 1)).sum : Nat) : Int) ≤ i64Max) :
    pruneCountStep dbg F eps a (ptrUpTo counts a.n k) k = .ok (ptrUpTo counts a.n (k + 1)) := by
  have ht : counts.take (k + 1) = counts.take k ++ [counts[k]'(by omega)] :=
    List.take_succ_eq_append_getElem (by omega)
  have hsum : (counts.take (k + 1)).sum = (counts.take k).sum + counts[k]'(by omega) := by
    rw [ht, List.sum_append]; simp
  have hpl : (prefixPtr (counts.take k)).length = k + 1 := by simp; omega
  have hl : (ptrUpTo counts a.n k).length = a.n + 1 := by simp [ptrUpTo]; omega
  have hg : (ptrUpTo counts a.n k)[k]'(by omega) = ((counts.take k).sum : Nat) := by
    have := prefixPtr_getD (counts.take k) k (by simp; omega)
    rw [List.take_take, Nat.min_self, List.getD_eq_getElem?_getD, List.getElem?_eq_getElem (by omega)] at this
    unfold ptrUpTo
    rw [List.getElem_append_left (by omega)]
    exact this
  unfold pruneCountStep
  rw [hc, ok_bind, index_eq (by omega), ok_bind, hg, usizeToI64P_eq (by omega), ok_bind,
    addI64_eq (by omega) (by omega) (by omega), ok_bind, setIdxP_eq (by omega)]
  congr 1
  unfold ptrUpTo
  rw [ht, prefixPtr_snoc, List.set_append_right _ _ (by omega), hpl, Nat.sub_self,
    show a.n - k = (a.n - (k + 1)) + 1 by omega, List.replicate_succ]
  simp

theorem copyStep_foldlM {dbg : Bool} {eps : V} : ∀ (l : Row V) (d : Nat) (ix : List Int) (vs : List V),
    d + (copySig eps l).length ≤ ix.length → d + (copySig eps l).length ≤ vs.length →
    (ix.length : Int) ≤ i64Max →
    l.foldlM (copyStep dbg eps) (d, ix, vs)
      = .ok (d + (copySig eps l).length, applyWrites ix (lineWrites d ((copySig eps l).map Prod.fst)),
          applyWrites vs (lineWrites d ((copySig eps l).map Prod.snd))) := by
  intro l
  induction l with
  | nil => intro d ix vs _ _ _; simp [copySig, lineWrites, applyWrites]; rfl
  | cons x l ih =>
    intro d ix vs h1 h2 h3
    rw [List.foldlM_cons]
    by_cases hs : significant eps x.2
    · have hcs : copySig eps (x :: l) = x :: copySig eps l := by simp [copySig, hs]
      rw [hcs, List.length_cons] at h1 h2
      have step : copyStep dbg eps (d, ix, vs) x = .ok (d + 1, ix.set d x.1, vs.set d x.2) := by
        unfold copyStep
        rw [if_pos hs]
        rw [setIdxP_eq (show d < ix.length by omega), ok_bind, setIdxP_eq (show d < vs.length by omega), ok_bind,
          addUsize_eq' (by push_cast; omega), ok_bind]
        rfl
      rw [step, ok_bind, ih (d + 1) _ _ (by simp; omega) (by simp; omega) (by simp; omega), hcs]
      simp [lineWrites, applyWrites, Nat.add_comm, Nat.add_left_comm]
    · have hcs : copySig eps (x :: l) = copySig eps l := by simp [copySig, hs]
      rw [hcs] at h1 h2
      have step : copyStep dbg eps (d, ix, vs) x = .ok (d, ix, vs) := by
        unfold copyStep
        rw [if_neg hs]; rfl
      rw [step, ok_bind, ih d ix vs h1 h2 h3, hcs]

theorem copyWindowP_eq {dbg : Bool} {eps : V} {a : Comp V} {ptr : List Int} {i st : Nat} {ix : List Int} {vs : List V}
    (h : WinOk a a.data.length i) (hx : a.ptr (i + 1) ≤ a.indices.length) (hd : 8 * (a.data.length : Int) ≤ i64Max)
    (hi : i < windowsLen a) (hp : ptr[i]? = some (st : Int)) (hnn : (ix.length : Int) ≤ i64Max)
    (h1 : st + (copySig eps (a.row i)).length ≤ ix.length) (h2 : st + (copySig eps (a.row i)).length ≤ vs.length) :
    copyWindowP dbg eps a ptr (ix, vs) i
      = .ok (applyWrites ix (lineWrites st ((copySig eps (a.row i)).map Prod.fst)),
          applyWrites vs (lineWrites st ((copySig eps (a.row i)).map Prod.snd))) := by
  obtain ⟨g, g'⟩ := List.getElem?_eq_some_iff.1 hp
  have hz : ((a.indices.take (a.ptr (i + 1))).drop (a.ptr i)).zip ((a.data.take (a.ptr (i + 1))).drop (a.ptr i))
      = a.row i := by
    rw [← Comp.row_fst hx h.ptr_le, ← Comp.row_snd hx h.ptr_le]
    generalize a.row i = r
    induction r with
    | nil => rfl
    | cons x r ih => simpa using ih
  unfold copyWindowP
  rw [windowP_eq h (by omega) dbg hi, ok_bind, index_eq g, ok_bind, g', i64ToUsizeP_eq (by omega) (by omega), ok_bind]
  simp only []
  rw [sliceP_ok h.ptr_mono hx, ok_bind, sliceP_ok h.ptr_mono h.ptr_le, ok_bind, hz,
    show ((st : Int).toNat) = st by omega, copyStep_foldlM _ _ _ _ h1 h2 hnn, ok_bind]
  rfl

/-- The buffers after `k` windows. -/
def copiedUpTo [Zero V] (eps : V) (a : Comp V) (counts : List Nat) (k : Nat) : List Int × List V :=
  (applyWrites (List.replicate counts.sum 0)
      ((List.range k).flatMap fun i => lineWrites (counts.take i).sum ((copySig eps (a.row i)).map Prod.fst)),
    applyWrites (List.replicate counts.sum 0)
      ((List.range k).flatMap fun i => lineWrites (counts.take i).sum ((copySig eps (a.row i)).map Prod.snd)))

theorem pruneSmallP_eq [Zero V] {dbg : Bool} {F : Nat} {eps : V} {a : Comp V}
    (hd : 8 * (a.data.length : Int) ≤ i64Max) (hn : 8 * ((a.n + 1 : Nat) : Int) ≤ i64Max) (hF : a.data.length < F)
    (hW : windowsLen a = a.n) (hx : ∀ i, i < a.n → a.ptr (i + 1) ≤ a.indices.length)
    (hw : ∀ i, i < a.n → WinOk a a.data.length i) :
    pruneSmallP dbg F eps a = .ok (Comp.ofRows a.m (pruneOuts eps a)) := by
  have hmin : min a.n (windowsLen a) = a.n := by omega
  have hs := pruneCnt_sum (eps := eps) (by rw [hmin]; exact hw)
  have hlens := pruneOuts_length (eps := eps) (by rw [hmin]; exact hx) (by rw [hmin]; exact hw)
  have hcount : ∀ i, i < a.n → pruneCountP dbg F eps a i = .ok (pruneCnt eps a i) :=
    fun i hi => pruneCountP_eq (hw i hi) hd (by omega) hF
  generalize hC : (List.range a.n).map (pruneCnt eps a) = counts at hs hlens
  have hcl : counts.length = a.n := by rw [← hC]; simp
  have hget : ∀ i (h : i < a.n), counts[i]'(by omega) = pruneCnt eps a i := by intro i h; simp [← hC]
  have ht := hs a.n (Nat.le_refl _)
  rw [List.take_of_length_le (by omega)] at ht
  have hfold1 : (List.range a.n).foldlM (pruneCountStep dbg F eps a) (List.replicate (a.n + 1) 0)
      = .ok (prefixPtr counts) := by
    have := foldlM_range (f := pruneCountStep dbg F eps a) (g := ptrUpTo counts a.n) a.n fun k hk =>
      pruneCountStep_eq hcl hk (by rw [hcount k hk, hget k hk]) (by have := hs (k + 1) (by omega); omega)
    rw [ptrUpTo_zero] at this
    rw [this]
    simp [ptrUpTo, List.take_of_length_le (show counts.length ≤ a.n by omega)]
  have hl : a.n < (prefixPtr counts).length := by simp; omega
  have hg : ∀ i, i ≤ a.n → (prefixPtr counts)[i]? = some (((counts.take i).sum : Nat) : Int) := by
    intro i hi
    have := prefixPtr_getD counts i (by omega)
    rw [List.getD_eq_getElem?_getD, List.getElem?_eq_getElem (by simp; omega)] at this
    rw [List.getElem?_eq_getElem (by simp; omega)]
    exact congrArg some this
  have hfold2 : (List.range a.n).foldlM (copyWindowP dbg eps a (prefixPtr counts))
      (List.replicate counts.sum 0, List.replicate counts.sum 0) = .ok (copiedUpTo eps a counts a.n) := by
    have := foldlM_range (f := copyWindowP dbg eps a (prefixPtr counts)) (g := copiedUpTo eps a counts) a.n fun k hk => by
      have e1 : (counts.take (k + 1)).sum + (counts.drop (k + 1)).sum = counts.sum := by
        rw [← List.sum_append, List.take_append_drop]
      have e2 : (counts.take (k + 1)).sum = (counts.take k).sum + (copySig eps (a.row k)).length := by
        rw [List.take_succ_eq_append_getElem (by omega), List.sum_append, hget k hk,
          copySig_length eps (hx k hk) (hw k hk).ptr_le]
        simp [pruneCnt]
      unfold copiedUpTo
      rw [copyWindowP_eq (hw k hk) (hx k hk) hd (by omega) (hg k (by omega)) (by simp; omega) (by simp; omega)
        (by simp; omega)]
      rw [List.range_succ]
      simp [applyWrites, List.foldl_append]
    simpa [copiedUpTo, applyWrites] using this
  have hflat : ∀ {α : Type} (f : Int × V → α) (z : α),
      applyWrites (List.replicate counts.sum z)
        ((List.range a.n).flatMap fun i => lineWrites (counts.take i).sum ((copySig eps (a.row i)).map f))
        = (pruneOuts eps a).flatten.map f := by
    intro α f z
    have e0 : ((pruneOuts eps a).map (·.map f)).map List.length = counts := by simp [hlens]
    have e1 : ((List.range a.n).flatMap fun i => lineWrites (counts.take i).sum ((copySig eps (a.row i)).map f))
        = lineWrites 0 ((pruneOuts eps a).flatten.map f) := by
      rw [List.map_flatten, ← fillWrites_eq, e0]
      unfold pruneOuts
      rw [List.map_map, fillWrites_range _ _ _ (by simp; omega), List.flatMap_def, List.flatMap_def]
      refine congrArg List.flatten (List.map_congr_left fun i hi => ?_)
      have := List.mem_range.1 hi
      rw [ptrFrom_getD 0 counts i (by omega), Nat.zero_add]
      rfl
    rw [e1]
    exact applyWrites_scatter (List.Perm.refl _) (by rw [List.length_replicate, List.length_map, List.length_flatten, hlens])
  obtain ⟨g, g'⟩ := List.getElem?_eq_some_iff.1 (hg a.n (Nat.le_refl _))
  rw [List.take_of_length_le (by omega)] at g'
  unfold pruneSmallP
  rw [addUsize_eq' (by omega), ok_bind, zerosP_ok hn, ok_bind, hW, hfold1, ok_bind, index_eq hl, ok_bind, g',
    i64ToUsizeP_eq (by omega) (by omega), ok_bind, show ((counts.sum : Nat) : Int).toNat = counts.sum by omega,
    zerosP_ok (by omega), ok_bind, hfold2, ok_bind]
  unfold copiedUpTo
  rw [hflat Prod.fst, hflat Prod.snd]
  unfold Comp.ofRows
  rw [← hlens]
  have : (pruneOuts eps a).length = a.n := by simp [pruneOuts]
  rw [this]
  rfl

/-- More windows than lines: the counting loop of the sequential path stops with a panic. -/
theorem pruneSmallP_long [Zero V] {dbg : Bool} {F : Nat} {eps : V} {a : Comp V}
    (hd : 8 * (a.data.length : Int) ≤ i64Max) (hn : 8 * ((a.n + 1 : Nat) : Int) ≤ i64Max) (hF : a.data.length < F)
    (hW : a.n < windowsLen a) (hw : ∀ i, i ≤ a.n → WinOk a a.data.length i) :
    pruneSmallP dbg F eps a = .error .panic := by
  have hmin : min a.n (windowsLen a) = a.n := by omega
  have hs := pruneCnt_sum (eps := eps) (a := a) (by rw [hmin]; exact fun i hi => hw i (by omega))
  have hcount : ∀ i, i ≤ a.n → pruneCountP dbg F eps a i = .ok (pruneCnt eps a i) :=
    fun i hi => pruneCountP_eq (hw i hi) hd (by omega) hF
  have hlast := pruneCnt_le (eps := eps) (a := a) (i := a.n)
  have hlast' := (hw a.n (Nat.le_refl _)).ptr_le
  generalize hC : (List.range a.n).map (pruneCnt eps a) = counts at hs
  have hcl : counts.length = a.n := by rw [← hC]; simp
  have hget : ∀ i (h : i < a.n), counts[i]'(by omega) = pruneCnt eps a i := by intro i h; simp [← hC]
  have ht := hs a.n (Nat.le_refl _)
  rw [List.take_of_length_le (by omega)] at ht
  have hfold1 : (List.range a.n).foldlM (pruneCountStep dbg F eps a) (List.replicate (a.n + 1) 0)
      = .ok (prefixPtr counts) := by
    have := foldlM_range (f := pruneCountStep dbg F eps a) (g := ptrUpTo counts a.n) a.n fun k hk =>
      pruneCountStep_eq hcl hk (by rw [hcount k (by omega), hget k hk]) (by have := hs (k + 1) (by omega); omega)
    rw [ptrUpTo_zero] at this
    rw [this]
    simp [ptrUpTo, List.take_of_length_le (show counts.length ≤ a.n by omega)]
  have hl : a.n < (prefixPtr counts).length := by simp; omega
  have hg : (prefixPtr counts)[a.n] = ((counts.sum : Nat) : Int) := by
    have := prefixPtr_getD counts a.n (by omega)
    rw [List.getD_eq_getElem?_getD, List.getElem?_eq_getElem hl, List.take_of_length_le (by omega)] at this
    exact this
  have hstep : pruneCountStep dbg F eps a (prefixPtr counts) a.n = .error .panic := by
    unfold pruneCountStep
    rw [hcount a.n (Nat.le_refl _), ok_bind, index_eq hl, ok_bind, hg, usizeToI64P_eq (by omega), ok_bind,
      addI64_eq (by omega) (by omega) (by omega), ok_bind]
    unfold setIdxP
    rw [if_neg (by simp; omega)]
  have hfold : (List.range (windowsLen a)).foldlM (pruneCountStep dbg F eps a) (List.replicate (a.n + 1) 0)
      = .error .panic := by
    have hsplit : List.range (windowsLen a)
        = List.range a.n ++ a.n :: (List.range (windowsLen a - a.n - 1)).map (a.n + 1 + ·) := by
      have : List.range (windowsLen a) = List.range ((a.n + 1) + (windowsLen a - a.n - 1)) := by congr 1; omega
      rw [this, List.range_add, List.range_succ, List.append_assoc]
      rfl
    rw [hsplit, List.foldlM_append, hfold1, ok_bind, List.foldlM_cons, hstep]
    rfl
  unfold pruneSmallP
  rw [addUsize_eq' (by omega), ok_bind, zerosP_ok hn, ok_bind, hfold]
  rfl

/-! ### more windows than lines -/

theorem asPtr_get_ub {α : Type} {v : List α} {k : Nat} (h : v.length ≤ k) : (asPtr v).get k = .error .ub := by
  unfold Ptr.get Ptr.add Ptr.read asPtr
  simp only [Nat.zero_add]
  by_cases h2 : k ≤ v.length
  · rw [if_pos h2, ok_bind]
    simp only [List.getElem?_eq_none h]
  · rw [if_neg h2]; rfl

/-- At the end of the buffers the first significant entry is stored outside. -/
theorem pruneFillStep_end {dbg : Bool} {eps : V} {a : Comp V} {nnz : Nat} :
    ∀ (l : Row V) (s : Nat) (w : Stores V),
    (∀ k (h : k < l.length), a.indices[s + k]? = some l[k].1 ∧ a.data[s + k]? = some l[k].2) →
    (List.range' s l.length).foldlM (pruneFillStep dbg eps a nnz) (nnz, w)
      = if (copySig eps l).length = 0 then .ok (nnz, w) else .error .ub := by
  intro l
  induction l with
  | nil => intro s w _; simp [copySig]; rfl
  | cons x l ih =>
    intro s w h
    obtain ⟨x1, x2⟩ := h 0 (by simp)
    simp only [Nat.add_zero, List.getElem_cons_zero] at x1 x2
    have hl : ∀ k (hk : k < l.length), a.indices[(s + 1) + k]? = some l[k].1 ∧ a.data[(s + 1) + k]? = some l[k].2 := by
      intro k hk
      have := h (k + 1) (by simp; omega)
      rw [show s + 1 + k = s + (k + 1) by omega]
      simpa using this
    obtain ⟨g1, g1'⟩ := List.getElem?_eq_some_iff.1 x1
    obtain ⟨g2, g2'⟩ := List.getElem?_eq_some_iff.1 x2
    rw [List.length_cons, List.range'_succ, List.foldlM_cons]
    by_cases hs : significant eps x.2
    · have hcs : copySig eps (x :: l) = x :: copySig eps l := by simp [copySig, hs]
      have hadd : MutPtr.add ⟨nnz, 0⟩ nnz = .ok ⟨nnz, nnz⟩ := by
        unfold MutPtr.add; simp
      have step : pruneFillStep dbg eps a nnz (nnz, w) s = .error .ub := by
        unfold pruneFillStep
        rw [asPtr_get g2, ok_bind, g2', if_pos hs, hadd, ok_bind, asPtr_get g1, ok_bind, g1']
        unfold MutPtr.write
        rw [if_neg (show ¬ nnz < nnz by omega)]
        rfl
      rw [step, hcs, if_neg (by simp)]
      rfl
    · have hcs : copySig eps (x :: l) = copySig eps l := by simp [copySig, hs]
      have step : pruneFillStep dbg eps a nnz (nnz, w) s = .ok (nnz, w) := by
        unfold pruneFillStep
        rw [asPtr_get g2, ok_bind, g2', if_neg hs]; rfl
      rw [step, ok_bind, ih (s + 1) w hl, hcs]

theorem parCollect_ub {α : Type} {n : Nat} {f : Nat → Except Fault α}
    (h : ∀ i, i < n → (∃ x, f i = .ok x) ∨ f i = .error .ub) (i : Nat) (hi : i < n) (hu : f i = .error .ub)
    (o : Except Fault (List α)) : ParCollect n f o ↔ o = .error .ub := by
  cases o with
  | ok l =>
    show (List.range n).map f = l.map .ok ↔ _
    refine ⟨fun e => ?_, fun e => by cases e⟩
    have hl : l.length = n := by have := congrArg List.length e; simpa using this.symm
    have := congrArg (fun x => x[i]?) e
    simp [List.getElem?_range hi, hu, List.getElem?_eq_getElem (show i < l.length by omega)] at this
  | error e =>
    show (∃ i, i < n ∧ f i = .error e) ↔ _
    constructor
    · rintro ⟨j, hj, he⟩
      rcases h j hj with ⟨x, hx⟩ | hx
      · rw [hx] at he; cases he
      · rw [hx] at he; cases he; rfl
    · intro h
      cases h
      exact ⟨i, hi, hu⟩

/-- The parallel path with more windows than lines, all inside both arrays. -/
theorem pruneLargePtr_long [Zero V] {dbg : Bool} {F : Nat} {eps : V} {a : Comp V}
    (hd : 8 * (a.data.length : Int) ≤ i64Max) (hn : 8 * ((a.n + 1 : Nat) : Int) ≤ i64Max) (hF : a.data.length < F)
    (hW : a.n < windowsLen a)
    (hx : ∀ i, i < windowsLen a → a.ptr (i + 1) ≤ a.indices.length)
    (hw : ∀ i, i < windowsLen a → WinOk a a.data.length i) (out : Except Fault (Comp V)) :
    PruneLargePtr dbg F eps a out ↔
      out = if windowsLen a = a.n + 1 ∧ (copySig eps (a.row a.n)).length = 0
        then .ok (Comp.ofRows a.m (pruneOuts eps a)) else .error .ub := by
  have hmin : min a.n (windowsLen a) = a.n := by omega
  have hx' : ∀ i, i < min a.n (windowsLen a) → a.ptr (i + 1) ≤ a.indices.length := fun i hi => hx i (by omega)
  have hw' : ∀ i, i < min a.n (windowsLen a) → WinOk a a.data.length i := fun i hi => hw i (by omega)
  rw [pruneLarge_plan hd hn hF hw']
  have hfill := pruneFill_ok (dbg := dbg) (eps := eps) hd hx' hw'
  rw [hmin] at hfill
  have hlens := pruneOuts_length (eps := eps) hx' hw'
  have hs := pruneCnt_sum (eps := eps) hw'
  generalize hC : (List.range a.n).map (pruneCnt eps a) = counts at hfill hlens hs
  have hcl : counts.length = a.n := by rw [← hC]; simp
  have ht := hs a.n (Nat.le_refl _)
  rw [List.take_of_length_le (by omega)] at ht
  have hpl : (prefixPtr counts).length = a.n + 1 := by simp; omega
  have hg : (prefixPtr counts)[a.n]'(by omega) = ((counts.sum : Nat) : Int) := by
    have := prefixPtr_getD counts a.n (by omega)
    rw [List.getD_eq_getElem?_getD, List.getElem?_eq_getElem (by omega), List.take_of_length_le (by omega)] at this
    exact this
  have hlast : pruneFillP dbg eps a (prefixPtr counts) counts.sum a.n
      = if (copySig eps (a.row a.n)).length = 0 then .ok ([], []) else .error .ub := by
    have h := hw a.n hW
    have hm := h.ptr_mono
    have hl := h.ptr_le
    have hxx := hx a.n hW
    have hlen : (a.row a.n).length = a.ptr (a.n + 1) - a.ptr a.n := by
      simp [Comp.row, Comp.entries]; omega
    unfold pruneFillP
    rw [windowP_eq h (by omega) dbg hW, ok_bind]
    simp only []
    rw [asPtr_get (by omega), ok_bind, hg, i64ToUsizeP_eq (by omega) (by omega), ok_bind, ← hlen,
      show ((counts.sum : Nat) : Int).toNat = counts.sum by omega, pruneFillStep_end]
    · split <;> rfl
    · intro k hk
      rw [hlen] at hk
      rw [List.getElem?_eq_getElem (by omega), List.getElem?_eq_getElem (by omega)]
      simp [Comp.row, Comp.entries]
  have hpast : ∀ i, a.n < i → i < windowsLen a → pruneFillP dbg eps a (prefixPtr counts) counts.sum i = .error .ub := by
    intro i h1 h2
    unfold pruneFillP
    rw [windowP_eq (hw i h2) (by omega) dbg h2, ok_bind]
    simp only []
    rw [asPtr_get_ub (by omega)]
    rfl
  have hcls : ∀ i, i < windowsLen a → (∃ x, pruneFillP dbg eps a (prefixPtr counts) counts.sum i = .ok x) ∨
      pruneFillP dbg eps a (prefixPtr counts) counts.sum i = .error .ub := by
    intro i hi
    rcases Nat.lt_trichotomy i a.n with h | h | h
    · exact .inl ⟨_, hfill i h⟩
    · rw [h, hlast]
      split
      · exact .inl ⟨_, rfl⟩
      · exact .inr rfl
    · exact .inr (hpast i h hi)
  have hub : ∀ j, j < windowsLen a → pruneFillP dbg eps a (prefixPtr counts) counts.sum j = .error .ub →
      ((∃ oe, ParCollect (windowsLen a) (pruneFillP dbg eps a (prefixPtr counts) counts.sum) oe ∧
        match oe with
        | .error x => out = .error x
        | .ok evs => Assemble counts.sum evs (fun ix vs => (⟨a.n, a.m, prefixPtr counts, ix, vs⟩ : Comp V)) out)
      ↔ out = .error .ub) := by
    intro j hj hju
    constructor
    · rintro ⟨oe, hoe, h⟩
      rw [parCollect_ub hcls j hj hju] at hoe
      subst hoe
      exact h
    · intro h
      exact ⟨.error .ub, (parCollect_ub hcls j hj hju _).2 rfl, h⟩
  by_cases hc : (copySig eps (a.row a.n)).length = 0
  · by_cases hW1 : windowsLen a = a.n + 1
    · rw [if_pos ⟨hW1, hc⟩, ← pruneAssemble (k := a.n + 1) hlens (fun i h1 h2 => by
        have : i = a.n := by omega
        rw [this]; exact List.length_eq_zero_iff.1 hc) out]
      have hall : ∀ i, i < windowsLen a → pruneFillP dbg eps a (prefixPtr counts) counts.sum i
          = .ok (storesAt (counts.take i).sum (copySig eps (a.row i))) := by
        intro i hi
        by_cases h : i < a.n
        · exact hfill i h
        · have : i = a.n := by omega
          rw [this, hlast, if_pos hc, List.length_eq_zero_iff.1 hc]
          rfl
      constructor
      · rintro ⟨oe, hoe, h⟩
        rw [parCollect_ok hall] at hoe
        subst hoe
        rw [← hW1]
        exact h
      · intro h
        rw [← hW1] at h
        exact ⟨_, (parCollect_ok hall _).2 rfl, h⟩
    · rw [if_neg fun h => hW1 h.1]
      exact hub (a.n + 1) (by omega) (hpast _ (by omega) (by omega))
  · rw [if_neg fun h => hc h.2]
    exact hub a.n hW (by rw [hlast, if_neg hc])

/-! ### fewer indices than values -/

theorem pruneFillStep_short {dbg : Bool} {eps : V} {a : Comp V} {nnz : Nat} (hnn : (nnz : Int) ≤ i64Max) :
    ∀ (k s d : Nat) (w : Stores V), s + k ≤ a.data.length →
    d + ((a.data.take (s + k)).drop s).countP (significant eps) ≤ nnz →
    (List.range' s k).foldlM (pruneFillStep dbg eps a nnz) (d, w) = .error .ub ∨
    ((∃ r, (List.range' s k).foldlM (pruneFillStep dbg eps a nnz) (d, w) = .ok r) ∧
      ∀ t (ht : t < a.data.length), s ≤ t → t < s + k → significant eps a.data[t] = true → t < a.indices.length) := by
  intro k
  induction k with
  | zero => intro s d w _ _; exact .inr ⟨⟨_, rfl⟩, fun t _ h1 h2 => by omega⟩
  | succ k ih =>
    intro s d w hs hc
    have hd : (a.data.take (s + (k + 1))).drop s = a.data[s]'(by omega) :: (a.data.take (s + 1 + k)).drop (s + 1) := by
      rw [show s + 1 + k = s + (k + 1) by omega, List.drop_eq_getElem_cons (by simp; omega)]
      simp
    rw [hd, List.countP_cons] at hc
    rw [List.range'_succ, List.foldlM_cons]
    by_cases hsg : significant eps (a.data[s]'(by omega))
    · rw [if_pos hsg] at hc
      have hadd : MutPtr.add ⟨nnz, 0⟩ d = .ok ⟨nnz, d⟩ := by
        unfold MutPtr.add; simp only [Nat.zero_add]; rw [if_pos (by omega)]
      by_cases hx : s < a.indices.length
      · have step : pruneFillStep dbg eps a nnz (d, w) s
            = .ok (d + 1, w.1 ++ [(d, a.indices[s])], w.2 ++ [(d, a.data[s]'(by omega))]) := by
          unfold pruneFillStep
          rw [asPtr_get (by omega), ok_bind, if_pos hsg, hadd, ok_bind, asPtr_get hx, ok_bind]
          unfold MutPtr.write
          rw [if_pos (show d < nnz by omega), ok_bind, ok_bind, if_pos (show d < nnz by omega), ok_bind,
            addUsize_eq' (by push_cast; omega), ok_bind]
          rfl
        rw [step, ok_bind]
        rcases ih (s + 1) (d + 1) _ (by omega) (by omega) with h | ⟨h, h'⟩
        · exact .inl h
        · refine .inr ⟨h, fun t ht h1 h2 h3 => ?_⟩
          by_cases hst : t = s
          · omega
          · exact h' t ht (by omega) (by omega) h3
      · have step : pruneFillStep dbg eps a nnz (d, w) s = .error .ub := by
          unfold pruneFillStep
          rw [asPtr_get (by omega), ok_bind, if_pos hsg, hadd, ok_bind, asPtr_get_ub (by omega)]
          rfl
        rw [step]
        exact .inl rfl
    · rw [if_neg hsg] at hc
      have step : pruneFillStep dbg eps a nnz (d, w) s = .ok (d, w) := by
        unfold pruneFillStep
        rw [asPtr_get (by omega), ok_bind, if_neg hsg]; rfl
      rw [step, ok_bind]
      rcases ih (s + 1) d w (by omega) (by omega) with h | ⟨h, h'⟩
      · exact .inl h
      · refine .inr ⟨h, fun t ht h1 h2 h3 => ?_⟩
        by_cases hst : t = s
        · subst hst; exact absurd h3 hsg
        · exact h' t ht (by omega) (by omega) h3

/-- The parallel path with a significant value that has no index. -/
theorem pruneLargePtr_short [Zero V] {dbg : Bool} {F : Nat} {eps : V} {a : Comp V}
    (hd : 8 * (a.data.length : Int) ≤ i64Max) (hn : 8 * ((a.n + 1 : Nat) : Int) ≤ i64Max) (hF : a.data.length < F)
    (hW : windowsLen a ≤ a.n) (hw : ∀ i, i < windowsLen a → WinOk a a.data.length i)
    {i t : Nat} (hi : i < windowsLen a) (ht : t < a.data.length) (h1 : a.ptr i ≤ t) (h2 : t < a.ptr (i + 1))
    (hsg : significant eps a.data[t] = true) (hx : a.indices.length ≤ t) (out : Except Fault (Comp V)) :
    PruneLargePtr dbg F eps a out ↔ out = .error .ub := by
  have hmin : min a.n (windowsLen a) = windowsLen a := by omega
  have hw' : ∀ i, i < min a.n (windowsLen a) → WinOk a a.data.length i := fun i hi => hw i (by omega)
  rw [pruneLarge_plan hd hn hF hw']
  have hs := pruneCnt_sum (eps := eps) hw'
  generalize hC : (List.range a.n).map (pruneCnt eps a) = counts at hs
  have hcl : counts.length = a.n := by rw [← hC]; simp
  have htot := hs a.n (Nat.le_refl _)
  rw [List.take_of_length_le (by omega)] at htot
  have hcls : ∀ i, i < windowsLen a → pruneFillP dbg eps a (prefixPtr counts) counts.sum i = .error .ub ∨
      ((∃ x, pruneFillP dbg eps a (prefixPtr counts) counts.sum i = .ok x) ∧
        ∀ t (ht : t < a.data.length), a.ptr i ≤ t → t < a.ptr (i + 1) → significant eps a.data[t] = true →
          t < a.indices.length) := by
    intro i hi
    have h := hw i hi
    have hm := h.ptr_mono
    have hl := h.ptr_le
    have e1 : (counts.take (i + 1)).sum + (counts.drop (i + 1)).sum = counts.sum := by
      rw [← List.sum_append, List.take_append_drop]
    have e2 : (counts.take (i + 1)).sum = (counts.take i).sum + pruneCnt eps a i := by
      rw [List.take_succ_eq_append_getElem (by omega), List.sum_append]
      simp [← hC]
    have hpl : i < (prefixPtr counts).length := by simp; omega
    have hg := prefixPtr_getD counts i (by omega)
    rw [List.getD_eq_getElem?_getD, List.getElem?_eq_getElem hpl] at hg
    have hst : pruneFillP dbg eps a (prefixPtr counts) counts.sum i
        = ((List.range' (a.ptr i) (a.ptr (i + 1) - a.ptr i)).foldlM (pruneFillStep dbg eps a counts.sum)
            ((counts.take i).sum, ([], [])) >>= fun st => pure st.2) := by
      unfold pruneFillP
      rw [windowP_eq h (by omega) dbg hi, ok_bind]
      simp only []
      rw [asPtr_get hpl, ok_bind, show (prefixPtr counts)[i] = (((counts.take i).sum : Nat) : Int) from hg,
        i64ToUsizeP_eq (by omega) (by omega), ok_bind]
      rfl
    have key := pruneFillStep_short (dbg := dbg) (eps := eps) (a := a) (nnz := counts.sum) (by omega)
      (a.ptr (i + 1) - a.ptr i) (a.ptr i) (counts.take i).sum ([], []) (by omega)
      (by
        rw [show a.ptr i + (a.ptr (i + 1) - a.ptr i) = a.ptr (i + 1) by omega]
        unfold pruneCnt at e2
        omega)
    rw [hst]
    rcases key with h | ⟨⟨r, h⟩, h'⟩
    · rw [h]; exact .inl rfl
    · rw [h]
      refine .inr ⟨⟨_, rfl⟩, fun t ht h1 h2 h3 => h' t ht h1 (by omega) h3⟩
  have hbad : pruneFillP dbg eps a (prefixPtr counts) counts.sum i = .error .ub := by
    rcases hcls i hi with h | ⟨_, h⟩
    · exact h
    · have := h t ht h1 h2 hsg
      omega
  have hcls' : ∀ i, i < windowsLen a → (∃ x, pruneFillP dbg eps a (prefixPtr counts) counts.sum i = .ok x) ∨
      pruneFillP dbg eps a (prefixPtr counts) counts.sum i = .error .ub := by
    intro i hi
    rcases hcls i hi with h | ⟨h, _⟩
    · exact .inr h
    · exact .inl h
  constructor
  · rintro ⟨oe, hoe, h⟩
    rw [parCollect_ub hcls' i hi hbad] at hoe
    subst hoe
    exact h
  · intro h
    exact ⟨.error .ub, (parCollect_ub hcls' i hi hbad _).2 rfl, h⟩

/-! ### arbitrary pointers -/

/-- A value, or a panic. -/
def PanicOr {α : Type} (o : Except Fault α) : Prop := o = .error .panic ∨ ∃ x, o = .ok x

theorem PanicOr.bind {α β : Type} {o : Except Fault α} {f : α → Except Fault β} (h : PanicOr o) (hf : ∀ x, PanicOr (f x)) :
    PanicOr (o >>= f) := by
  rcases h with rfl | ⟨x, rfl⟩
  · exact .inl rfl
  · exact hf x

theorem PanicOr.foldlM {σ α : Type} {f : σ → α → Except Fault σ} (hf : ∀ s x, PanicOr (f s x)) (l : List α) :
    ∀ s, PanicOr (l.foldlM f s) := by
  induction l with
  | nil => intro s; exact .inr ⟨s, rfl⟩
  | cons x l ih => intro s; rw [List.foldlM_cons]; exact (hf s x).bind fun s' => ih s'

theorem PanicOr.pure {α : Type} (x : α) : PanicOr (Pure.pure x : Except Fault α) := .inr ⟨x, rfl⟩
theorem PanicOr.index {α : Type} (v : List α) (i : Nat) : PanicOr (index v i) := by
  unfold Lacuna.index; split
  · exact .inr ⟨_, rfl⟩
  · exact .inl rfl
theorem PanicOr.i64ToUsizeP (dbg : Bool) (x : Int) : PanicOr (i64ToUsizeP dbg x) := by
  unfold Lacuna.i64ToUsizeP; split
  · exact .inl rfl
  · exact .inr ⟨_, rfl⟩
theorem PanicOr.usizeToI64P (dbg : Bool) (x : Nat) : PanicOr (usizeToI64P dbg x) := by
  unfold Lacuna.usizeToI64P; split
  · exact .inl rfl
  · exact .inr ⟨_, rfl⟩
theorem PanicOr.addI64 (dbg : Bool) (x y : Int) : PanicOr (addI64 dbg x y) := by
  unfold Lacuna.addI64; split
  · exact .inr ⟨_, rfl⟩
  · split
    · exact .inl rfl
    · exact .inr ⟨_, rfl⟩
theorem PanicOr.addUsize (dbg : Bool) (x y : Nat) : PanicOr (addUsize dbg x y) := by
  unfold Lacuna.addUsize; split
  · exact .inr ⟨_, rfl⟩
  · split
    · exact .inl rfl
    · exact .inr ⟨_, rfl⟩
theorem PanicOr.zerosP (n : Nat) : PanicOr (zerosP n) := by
  unfold Lacuna.zerosP; split
  · exact .inr ⟨_, rfl⟩
  · exact .inl rfl
theorem PanicOr.setIdxP {α : Type} (v : List α) (i : Nat) (x : α) : PanicOr (setIdxP v i x) := by
  unfold Lacuna.setIdxP; split
  · exact .inr ⟨_, rfl⟩
  · exact .inl rfl
theorem PanicOr.sliceP {α : Type} (v : List α) (s e : Nat) : PanicOr (sliceP v s e) := by
  unfold Lacuna.sliceP; split
  · exact .inr ⟨_, rfl⟩
  · exact .inl rfl

omit [HasLt V] [HasAbs V] in
theorem windowP_panicOr (dbg : Bool) (a : Comp V) (i : Nat) : PanicOr (windowP dbg a i) := by
  unfold windowP
  exact (PanicOr.index _ _).bind fun _ => (PanicOr.i64ToUsizeP _ _).bind fun _ => (PanicOr.index _ _).bind fun _ =>
    (PanicOr.i64ToUsizeP _ _).bind fun _ => PanicOr.pure _

theorem pruneCountP_panicOr {dbg : Bool} {F : Nat} {eps : V} {a : Comp V} (hd : 8 * (a.data.length : Int) ≤ i64Max)
    (hF : a.data.length < F) (i : Nat) : PanicOr (pruneCountP dbg F eps a i) := by
  unfold pruneCountP
  refine (windowP_panicOr dbg a i).bind fun w => ?_
  by_cases h : w.1 ≤ w.2 ∧ w.2 ≤ a.data.length
  · rw [sliceP_ok h.1 h.2, ok_bind,
      countSigP_eq F eps _ (by simp; unfold usizeMax; unfold i64Max at hd; omega) (by simp; omega)]
    exact .inr ⟨_, rfl⟩
  · unfold sliceP
    rw [if_neg h]
    exact .inl rfl

theorem pruneSmallP_panicOr [Zero V] {dbg : Bool} {F : Nat} {eps : V} {a : Comp V}
    (hd : 8 * (a.data.length : Int) ≤ i64Max) (hF : a.data.length < F) : PanicOr (pruneSmallP dbg F eps a) := by
  unfold pruneSmallP
  refine (PanicOr.addUsize _ _ _).bind fun len => (PanicOr.zerosP _).bind fun ptr => (PanicOr.foldlM ?_ _ _).bind fun ptr =>
    (PanicOr.index _ _).bind fun x => (PanicOr.i64ToUsizeP _ _).bind fun nnz => (PanicOr.zerosP _).bind fun ix =>
    (PanicOr.foldlM ?_ _ _).bind fun st => PanicOr.pure _
  · intro s i
    unfold pruneCountStep
    exact (pruneCountP_panicOr hd hF i).bind fun _ => (PanicOr.index _ _).bind fun _ => (PanicOr.usizeToI64P _ _).bind fun _ =>
      (PanicOr.addI64 _ _ _).bind fun _ => PanicOr.setIdxP _ _ _
  · intro st i
    unfold copyWindowP
    refine (windowP_panicOr _ _ _).bind fun _ => (PanicOr.index _ _).bind fun _ => (PanicOr.i64ToUsizeP _ _).bind fun _ =>
      (PanicOr.sliceP _ _ _).bind fun _ => (PanicOr.sliceP _ _ _).bind fun _ => (PanicOr.foldlM ?_ _ _).bind fun _ => PanicOr.pure _
    intro s x
    unfold copyStep
    split
    · exact (PanicOr.setIdxP _ _ _).bind fun _ => (PanicOr.setIdxP _ _ _).bind fun _ => (PanicOr.addUsize _ _ _).bind fun _ =>
        PanicOr.pure _
    · exact PanicOr.pure _

/-- A counted window is inside `data`: the slice expression checks it. -/
theorem pruneCountP_valid {dbg : Bool} {F : Nat} {eps : V} {a : Comp V} (hd : 8 * (a.data.length : Int) ≤ i64Max)
    (hp : ∀ x ∈ a.indptr, -(2 ^ 63) ≤ x ∧ x ≤ i64Max) {i c : Nat} (hi : i < windowsLen a)
    (h : pruneCountP dbg F eps a i = .ok c) : WinOk a a.data.length i := by
  unfold windowsLen at hi
  have g1 := hp _ (List.getElem_mem (show i < a.indptr.length by omega))
  have g2 := hp _ (List.getElem_mem (show i + 1 < a.indptr.length by omega))
  have e1 : a.indptr.getD i 0 = a.indptr[i]'(by omega) := by
    rw [List.getD_eq_getElem?_getD, List.getElem?_eq_getElem (by omega)]; rfl
  have e2 : a.indptr.getD (i + 1) 0 = a.indptr[i + 1]'(by omega) := by
    rw [List.getD_eq_getElem?_getD, List.getElem?_eq_getElem (by omega)]; rfl
  generalize hx : a.indptr[i]'(by omega) = x at *
  generalize hy : a.indptr[i + 1]'(by omega) = y at *
  have hsl : asUsize x ≤ asUsize y ∧ asUsize y ≤ a.data.length := by
    unfold pruneCountP windowP at h
    rw [index_eq (by omega), ok_bind, hx] at h
    unfold i64ToUsizeP at h
    split at h
    · cases h
    · rw [ok_bind, index_eq (by omega), ok_bind, hy] at h
      split at h
      · cases h
      · rw [ok_bind] at h
        change (sliceP a.data (asUsize x) (asUsize y) >>= fun values => countSigP F eps values) = _ at h
        unfold sliceP at h
        split at h
        · assumption
        · cases h
  unfold asUsize at hsl
  unfold i64Max at hd g1 g2
  exact ⟨by rw [e1]; omega, by rw [e1, e2]; omega, by rw [e2]; omega⟩

/-- The parallel path on arbitrary pointers. -/
theorem pruneLargePtr_any [Zero V] {dbg : Bool} {F : Nat} {eps : V} {a : Comp V}
    (hd : 8 * (a.data.length : Int) ≤ i64Max) (hF : a.data.length < F)
    (hp : ∀ x ∈ a.indptr, -(2 ^ 63) ≤ x ∧ x ≤ i64Max) (hW : windowsLen a ≤ a.n)
    (hx : a.data.length ≤ a.indices.length) {out : Except Fault (Comp V)} (h : PruneLargePtr dbg F eps a out) :
    out = .error .panic ∨ ((∀ i, i < windowsLen a → WinOk a a.data.length i) ∧
      out = .ok (Comp.ofRows a.m (pruneOuts eps a))) := by
  have hmin : min a.n (windowsLen a) = windowsLen a := by omega
  by_cases hn0 : 8 * (a.n : Int) ≤ i64Max
  · have h0 := h
    unfold PruneLargePtr at h
    rw [zerosP_ok hn0] at h
    obtain ⟨oc, hoc, h⟩ := h
    rw [hmin] at hoc
    cases oc with
    | error e =>
      obtain ⟨i, hi, he⟩ := hoc
      rcases pruneCountP_panicOr (dbg := dbg) (eps := eps) hd hF i with h' | ⟨x, h'⟩
      · rw [h'] at he; cases he; exact .inl h
      · rw [h'] at he; cases he
    | ok counts =>
      have hcl : counts.length = windowsLen a := by have := congrArg List.length hoc; simpa using this.symm
      have hw : ∀ i, i < windowsLen a → WinOk a a.data.length i := by
        intro i hi
        have e := congrArg (fun l => l[i]?) hoc
        simp [List.getElem?_range hi, List.getElem?_eq_getElem (show i < counts.length by omega)] at e
        exact pruneCountP_valid hd hp hi e
      by_cases hn : 8 * ((a.n + 1 : Nat) : Int) ≤ i64Max
      · exact .inr ⟨hw, (pruneLargePtr_iff hd hn hF hW (fun i hi => by have := (hw i hi).ptr_le; omega) hw out).1 h0⟩
      · have : prunePlanP dbg a (counts ++ List.replicate (a.n - counts.length) 0) = .error .panic := by
          unfold prunePlanP
          rw [addUsize_eq' (by unfold i64Max at *; omega), ok_bind]
          unfold zerosP
          rw [if_neg hn]
          rfl
        simp only [this] at h
        exact .inl h
  · unfold PruneLargePtr zerosP at h
    rw [if_neg hn0] at h
    exact .inl h

end
end Lacuna
