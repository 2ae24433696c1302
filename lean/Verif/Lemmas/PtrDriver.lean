import Verif.Lemmas.PtrElementwise
import Verif.Spec.Ptr
namespace Lacuna
variable {V : Type}

/-! ### pointers of a matrix -/

namespace Comp.PtrOk
variable {a : Comp V}

theorem mono (h : a.PtrOk) {i j : Nat} (hij : i ≤ j) (hj : j ≤ a.n) :
    a.indptr.getD i 0 ≤ a.indptr.getD j 0 := mono_of_step h.ptr_mono hij hj

theorem nonneg (h : a.PtrOk) {i : Nat} (hi : i ≤ a.n) : 0 ≤ a.indptr.getD i 0 :=
  Int.le_trans h.ptr_first (h.mono (Nat.zero_le i) hi)

theorem cast (h : a.PtrOk) {i : Nat} (hi : i ≤ a.n) : (a.ptr i : Int) = a.indptr.getD i 0 := by
  have := h.nonneg hi
  unfold Comp.ptr; omega

theorem ptr_mono' (h : a.PtrOk) {i j : Nat} (hij : i ≤ j) (hj : j ≤ a.n) : a.ptr i ≤ a.ptr j := by
  have := h.mono hij hj
  unfold Comp.ptr; omega

theorem ptr_le_indices (h : a.PtrOk) {i : Nat} (hi : i ≤ a.n) : a.ptr i ≤ a.indices.length := by
  have := h.mono hi (Nat.le_refl _)
  have := h.last_indices
  unfold Comp.ptr; omega

theorem ptr_le_data (h : a.PtrOk) {i : Nat} (hi : i ≤ a.n) : a.ptr i ≤ a.data.length := by
  have := h.mono hi (Nat.le_refl _)
  have := h.last_data
  unfold Comp.ptr; omega

theorem row_length (h : a.PtrOk) {i : Nat} (hi : i < a.n) :
    (a.row i).length = a.ptr (i + 1) - a.ptr i := by
  have h1 := h.ptr_le_indices (i := i + 1) (by omega)
  have h2 := h.ptr_le_data (i := i + 1) (by omega)
  have h3 := h.ptr_mono' (i := i) (j := i + 1) (by omega) (by omega)
  unfold Comp.row Comp.entries
  rw [List.length_take, List.length_drop, List.length_zip]
  omega

theorem load (h : a.PtrOk) (hm : a.Machine) (dbg : Bool) {i : Nat} (hi : i ≤ a.n) :
    (do i64ToUsizeP dbg (← index a.indptr i)) = .ok (a.ptr i) := by
  have hl := h.ptr_length
  rw [index_eq (by omega), ok_bind]
  have e : a.indptr[i]'(by omega) = a.indptr.getD i 0 := by
    rw [List.getD_eq_getElem?_getD, List.getElem?_eq_getElem (by omega)]; rfl
  rw [e, i64ToUsizeP_eq (h.nonneg hi)]
  · rfl
  · have := h.mono hi (Nat.le_refl _)
    have := h.last_indices
    have := hm.indices
    omega

theorem seg (h : a.PtrOk) {i : Nat} (hi : i < a.n) :
    SegOk ⟨a.indices, a.ptr i⟩ ⟨a.data, a.ptr i⟩ (a.ptr (i + 1) - a.ptr i) (a.row i) := by
  have h1 := h.ptr_le_indices (i := i + 1) (by omega)
  have h2 := h.ptr_le_data (i := i + 1) (by omega)
  have hl := h.row_length hi
  refine ⟨hl, fun k hk => ?_, fun k hk => ?_⟩
  · rw [Ptr.get_eq (by show a.ptr i + k < a.indices.length; omega)]
    simp [Comp.row, Comp.entries]
  · rw [Ptr.get_eq (by show a.ptr i + k < a.data.length; omega)]
    simp [Comp.row, Comp.entries]

end Comp.PtrOk

theorem asPtr_add {α : Type} {v : List α} {k : Nat} (h : k ≤ v.length) :
    (asPtr v).add k = .ok ⟨v, k⟩ := by
  unfold Ptr.add asPtr
  simp only [Nat.zero_add]
  rw [if_pos h]

theorem asPtr_get {α : Type} {v : List α} {k : Nat} (h : k < v.length) :
    (asPtr v).get k = .ok v[k] := by
  rw [Ptr.get_eq (by show 0 + k < v.length; omega)]
  simp [asPtr]

theorem rowArgs_eq {a b : Comp V} (ha : a.PtrOk) (hb : b.PtrOk) (ma : a.Machine) (mb : b.Machine)
    (hn : a.n = b.n) (dbg : Bool) {i : Nat} (hi : i < a.n) :
    rowArgs dbg a b i = .ok ⟨⟨a.indices, a.ptr i⟩, ⟨a.data, a.ptr i⟩, a.ptr (i + 1) - a.ptr i,
      ⟨b.indices, b.ptr i⟩, ⟨b.data, b.ptr i⟩, b.ptr (i + 1) - b.ptr i⟩ := by
  have l1 := ha.load ma dbg (i := i) (by omega)
  have l2 := ha.load ma dbg (i := i + 1) (by omega)
  have l3 := hb.load mb dbg (i := i) (by omega)
  have l4 := hb.load mb dbg (i := i + 1) (by omega)
  have hla := ha.ptr_length
  have hlb := hb.ptr_length
  rw [index_eq (by omega), ok_bind] at l1 l2 l3 l4
  unfold rowArgs
  rw [index_eq (by omega), ok_bind, l1, ok_bind, index_eq (by omega), ok_bind, l2, ok_bind,
    index_eq (by omega), ok_bind, l3, ok_bind, index_eq (by omega), ok_bind, l4, ok_bind,
    subUsize_eq (ha.ptr_mono' (by omega) (by omega)), ok_bind,
    subUsize_eq (hb.ptr_mono' (by omega) (by omega)), ok_bind,
    asPtr_add (ha.ptr_le_indices (by omega)), ok_bind, asPtr_add (ha.ptr_le_data (by omega)), ok_bind,
    asPtr_add (hb.ptr_le_indices (by omega)), ok_bind, asPtr_add (hb.ptr_le_data (by omega)), ok_bind]
  rfl

theorem rowArgs_argsOk {a b : Comp V} (ha : a.PtrOk) (hb : b.PtrOk) (hn : a.n = b.n) {i : Nat}
    (hi : i < a.n) :
    ArgsOk ⟨⟨a.indices, a.ptr i⟩, ⟨a.data, a.ptr i⟩, a.ptr (i + 1) - a.ptr i,
      ⟨b.indices, b.ptr i⟩, ⟨b.data, b.ptr i⟩, b.ptr (i + 1) - b.ptr i⟩ (a.row i) (b.row i) :=
  ⟨ha.seg hi, hb.seg (by omega)⟩

/-! ### parallel passes -/

theorem parCollect_ok {α : Type} {n : Nat} {f : Nat → Except Fault α} {g : Nat → α}
    (h : ∀ i, i < n → f i = .ok (g i)) (o : Except Fault (List α)) :
    ParCollect n f o ↔ o = .ok ((List.range n).map g) := by
  have hm : (List.range n).map f = ((List.range n).map g).map .ok := by
    rw [List.map_map]
    exact List.map_congr_left fun i hi => h i (List.mem_range.1 hi)
  cases o with
  | ok l =>
    show (List.range n).map f = l.map .ok ↔ _
    rw [hm, Except.ok.injEq]
    exact ⟨fun e => ((List.map_inj_right fun _ _ e => by cases e; rfl).1 e).symm, fun e => by rw [e]⟩
  | error e =>
    show (∃ i, i < n ∧ f i = .error e) ↔ _
    constructor
    · rintro ⟨i, hi, he⟩
      rw [h i hi] at he; cases he
    · intro h; cases h

theorem fillWrites_range {α : Type} (starts : List Nat) (n : Nat) (f : Nat → List α)
    (h : n ≤ starts.length) :
    fillWrites starts ((List.range n).map f)
      = (List.range n).flatMap fun i => lineWrites (starts.getD i 0) (f i) := by
  unfold fillWrites
  have : starts.zip ((List.range n).map f) = (List.range n).map fun i => (starts.getD i 0, f i) := by
    apply List.ext_getElem
    · simp; omega
    · intro i h1 h2
      simp at h1 h2
      simp [List.getElem_zip, List.getElem?_eq_getElem (show i < starts.length by omega)]
  rw [this, List.flatMap_map]

theorem raceFree_of_nodup {V : Type} {evs : List (Stores V)}
    (h1 : ((evs.flatMap Prod.fst).map Prod.fst).Nodup)
    (h2 : ((evs.flatMap Prod.snd).map Prod.fst).Nodup) : raceFree evs := by
  induction evs with
  | nil => exact List.Pairwise.nil
  | cons e es ih =>
    simp only [List.flatMap_cons, List.map_append, List.nodup_append] at h1 h2
    refine List.Pairwise.cons (fun t ht => ⟨fun p hp hq => ?_, fun p hp hq => ?_⟩) (ih h1.2.1 h2.2.1)
    · refine h1.2.2 p hp p ?_ rfl
      rw [List.mem_map] at hq ⊢
      obtain ⟨x, hx, rfl⟩ := hq
      exact ⟨x, List.mem_flatMap.2 ⟨t, ht, hx⟩, rfl⟩
    · refine h2.2.2 p hp p ?_ rfl
      rw [List.mem_map] at hq ⊢
      obtain ⟨x, hx, rfl⟩ := hq
      exact ⟨x, List.mem_flatMap.2 ⟨t, ht, hx⟩, rfl⟩

/-- The pointer-level driver computes exactly the list-level result, in every schedule and in
both builds, if the row routines refine their list-level versions. -/
theorem binPtrRun_iff [Zero V] {countP : RowArgs V → Except Fault Nat}
    {fillP : RowArgs V → MutPtr → MutPtr → Except Fault (Nat × Stores V)}
    {count : Row V → Row V → Nat} {fill : Row V → Row V → Row V} {a b : Comp V}
    (ha : a.PtrOk) (hb : b.PtrOk) (ma : a.Machine) (mb : b.Machine) (hn : a.n = b.n)
    (hm : a.m = b.m) (dbg : Bool)
    (hcount : ∀ i, i < a.n → ∀ r, ArgsOk r (a.row i) (b.row i) →
      countP r = .ok (count (a.row i) (b.row i)))
    (hfill : ∀ i, i < a.n → ∀ r, ArgsOk r (a.row i) (b.row i) → ∀ (oi ov : MutPtr) (st : Nat),
      oi.off = st → ov.off = st → st + (fill (a.row i) (b.row i)).length ≤ oi.cap →
      st + (fill (a.row i) (b.row i)).length ≤ ov.cap →
      fillP r oi ov = .ok ((fill (a.row i) (b.row i)).length, storesAt st (fill (a.row i) (b.row i))))
    (hcf : ∀ i, i < a.n → count (a.row i) (b.row i) = (fill (a.row i) (b.row i)).length)
    (hle : ∀ i, i < a.n → (fill (a.row i) (b.row i)).length ≤ (a.row i).length + (b.row i).length)
    (out : Except Fault (Comp V)) :
    BinPtrRun dbg countP fillP a b out ↔ out = .ok (binComp count fill a b) := by
  have hcounts : lineCounts count a b = (lineFills fill a b).map List.length := lineCounts_eq hcf
  generalize hC : lineCounts count a b = counts at hcounts
  have hlen : counts.length = a.n := by rw [← hC]; simp [lineCounts]
  -- sizes
  have hsum : ∀ k, k ≤ a.n → (counts.take k).sum ≤ a.ptr k + b.ptr k := by
    intro k hk
    induction k with
    | zero => simp
    | succ k ih =>
      have hl : k < counts.length := by omega
      rw [List.take_succ_eq_append_getElem hl, List.sum_append]
      have e : counts[k] = (fill (a.row k) (b.row k)).length := by
        simp only [hcounts, lineFills, List.getElem_map, List.getElem_range]
      have h1 := hle k (by omega)
      rw [ha.row_length (by omega), hb.row_length (by omega)] at h1
      have h2 := ha.ptr_mono' (i := k) (j := k + 1) (by omega) (by omega)
      have h3 := hb.ptr_mono' (i := k) (j := k + 1) (by omega) (by omega)
      have := ih (by omega)
      simp only [List.sum_cons, List.sum_nil, e]
      omega
  have htot : ((counts.sum : Nat) : Int) ≤ i64Max := by
    have h1 := hsum a.n (Nat.le_refl _)
    rw [List.take_of_length_le (by omega)] at h1
    have h2 := ha.ptr_le_indices (Nat.le_refl a.n)
    have h3 := hb.ptr_le_indices (i := a.n) (by omega)
    have h4 := ma.indices
    have h5 := mb.indices
    unfold i64Max at *
    omega
  have htake : ∀ k, ((counts.take k).sum : Int) ≤ i64Max := by
    intro k
    have : (counts.take k).sum + (counts.drop k).sum = counts.sum := by
      rw [← List.sum_append, List.take_append_drop]
    omega
  have hP : ptrLoopP dbg 0 counts = .ok (prefixPtr counts) := by
    have := ptrLoopP_eq (dbg := dbg) counts 0 (by simpa using htot)
    exact this
  have hgetD : ∀ k, k ≤ a.n → (prefixPtr counts).getD k 0 = ((counts.take k).sum : Nat) :=
    fun k hk => prefixPtr_getD counts k (by omega)
  have hnnz : i64ToUsizeP dbg ((prefixPtr counts).getD a.n 0) = .ok counts.sum := by
    rw [hgetD _ (Nat.le_refl _), i64ToUsizeP_eq (by omega) (htake _),
      List.take_of_length_le (by omega)]
    rfl
  have hget : ∀ k, k ≤ a.n →
      (do i64ToUsizeP dbg (← (asPtr (prefixPtr counts)).get k)) = .ok (counts.take k).sum := by
    intro k hk
    have hl : k < (prefixPtr counts).length := by simp; omega
    rw [asPtr_get hl, ok_bind]
    have := hgetD k hk
    rw [List.getD_eq_getElem?_getD, List.getElem?_eq_getElem hl] at this
    rw [show (prefixPtr counts)[k] = ((counts.take k).sum : Nat) from this,
      i64ToUsizeP_eq (by omega) (htake _)]
    rfl
  -- the two passes
  have hpass1 : ∀ i, i < a.n → countIter dbg countP a b i = .ok (count (a.row i) (b.row i)) := by
    intro i hi
    unfold countIter
    rw [rowArgs_eq ha hb ma mb hn dbg hi, ok_bind]
    exact hcount i hi _ (rowArgs_argsOk ha hb hn hi)
  have hpass2 : ∀ i, i < a.n → fillIter dbg fillP a b (prefixPtr counts) counts.sum i
      = .ok (storesAt (counts.take i).sum (fill (a.row i) (b.row i))) := by
    intro i hi
    unfold fillIter
    have hl : i < counts.length := by omega
    have hsl : (counts.take (i + 1)).sum = (counts.take i).sum + (fill (a.row i) (b.row i)).length := by
      rw [List.take_succ_eq_append_getElem hl, List.sum_append]
      simp only [hcounts, lineFills, List.getElem_map, List.getElem_range, List.sum_cons, List.sum_nil,
        Nat.add_zero]
    have hcap : (counts.take i).sum + (fill (a.row i) (b.row i)).length ≤ counts.sum := by
      have : (counts.take (i + 1)).sum + (counts.drop (i + 1)).sum = counts.sum := by
        rw [← List.sum_append, List.take_append_drop]
      omega
    have g1 := hget i (by omega)
    have g2 := hget (i + 1) (by omega)
    have hl1 : i < (prefixPtr counts).length := by simp; omega
    have hl2 : i + 1 < (prefixPtr counts).length := by simp; omega
    rw [asPtr_get hl1, ok_bind] at g1
    rw [asPtr_get hl2, ok_bind] at g2
    have hadd : MutPtr.add ⟨counts.sum, 0⟩ (counts.take i).sum
        = .ok ⟨counts.sum, (counts.take i).sum⟩ := by
      unfold MutPtr.add
      simp only [Nat.zero_add]
      rw [if_pos (by omega)]
    rw [rowArgs_eq ha hb ma mb hn dbg hi, ok_bind, asPtr_get hl1, ok_bind, g1, ok_bind, hadd, ok_bind,
      ok_bind, hfill i hi _ (rowArgs_argsOk ha hb hn hi) _ _ _ rfl rfl hcap hcap, ok_bind,
      asPtr_get hl2]
    simp only [g2, ok_bind]
    rw [subUsize_eq (by omega), ok_bind, if_neg (by simp; omega)]
    rfl
  -- the stores
  have hev1 : ((List.range a.n).map fun i =>
        storesAt (counts.take i).sum (fill (a.row i) (b.row i))).flatMap Prod.fst
      = fillWrites (ptrFrom 0 counts) ((lineFills fill a b).map (·.map Prod.fst)) := by
    unfold lineFills
    rw [List.map_map, fillWrites_range _ _ _ (by simp; omega), List.flatMap_map]
    rw [List.flatMap_def, List.flatMap_def]
    refine congrArg List.flatten (List.map_congr_left fun i hi => ?_)
    rw [ptrFrom_getD 0 counts i (by have := List.mem_range.1 hi; omega)]
    simp [storesAt]
  have hev2 : ((List.range a.n).map fun i =>
        storesAt (counts.take i).sum (fill (a.row i) (b.row i))).flatMap Prod.snd
      = fillWrites (ptrFrom 0 counts) ((lineFills fill a b).map (·.map Prod.snd)) := by
    unfold lineFills
    rw [List.map_map, fillWrites_range _ _ _ (by simp; omega), List.flatMap_map]
    rw [List.flatMap_def, List.flatMap_def]
    refine congrArg List.flatten (List.map_congr_left fun i hi => ?_)
    rw [ptrFrom_getD 0 counts i (by have := List.mem_range.1 hi; omega)]
    simp [storesAt]
  have hnd1 : ((fillWrites (ptrFrom 0 counts) ((lineFills fill a b).map (·.map Prod.fst))).map
      Prod.fst).Nodup := by
    have : counts = ((lineFills fill a b).map (·.map Prod.fst)).map List.length := by simp [hcounts]
    rw [this, fillWrites_fst]; exact List.nodup_range'
  have hnd2 : ((fillWrites (ptrFrom 0 counts) ((lineFills fill a b).map (·.map Prod.snd))).map
      Prod.fst).Nodup := by
    have : counts = ((lineFills fill a b).map (·.map Prod.snd)).map List.length := by simp [hcounts]
    rw [this, fillWrites_fst]; exact List.nodup_range'
  have hrf := raceFree_of_nodup (V := V) (hev1 ▸ hnd1) (hev2 ▸ hnd2)
  have hres : binComp count fill a b = ⟨a.n, a.m, prefixPtr counts,
      applyWrites (List.replicate counts.sum 0)
        (fillWrites (ptrFrom 0 counts) ((lineFills fill a b).map (·.map Prod.fst))),
      applyWrites (List.replicate counts.sum 0)
        (fillWrites (ptrFrom 0 counts) ((lineFills fill a b).map (·.map Prod.snd)))⟩ := by
    unfold binComp twoPass twoPassOut
    have e : ((prefixPtr counts).getD a.n 0).toNat = counts.sum := by
      rw [hgetD _ (Nat.le_refl _), List.take_of_length_le (by omega)]; rfl
    simp only [hC, hlen, e]
  have hcl : (List.range a.n).map (fun i => count (a.row i) (b.row i)) = counts := by
    rw [← hC]; rfl
  unfold BinPtrRun
  rw [if_pos ⟨hn, hm⟩]
  constructor
  · rintro ⟨oc, hoc, h⟩
    rw [parCollect_ok hpass1, hcl] at hoc
    subst hoc
    simp only [hP, ok_bind, hnnz] at h
    obtain ⟨oe, hoe, h⟩ := h
    rw [parCollect_ok hpass2] at hoe
    subst hoe
    rcases h with ⟨h, _⟩ | ⟨_, wi, wv, hwi, hwv, rfl⟩
    · exact absurd hrf h
    · rw [hev1] at hwi
      rw [hev2] at hwv
      rw [hres, applyWrites_perm _ hwi ((hwi.map _).nodup_iff.2 hnd1),
        applyWrites_perm _ hwv ((hwv.map _).nodup_iff.2 hnd2)]
  · rintro rfl
    refine ⟨.ok counts, (parCollect_ok hpass1 _).2 (by rw [hcl]), ?_⟩
    simp only [hP, ok_bind, hnnz]
    refine ⟨_, (parCollect_ok hpass2 _).2 rfl, .inr ⟨hrf, _, _, List.Perm.refl _, List.Perm.refl _, ?_⟩⟩
    rw [hres, hev1, hev2]

end Lacuna
