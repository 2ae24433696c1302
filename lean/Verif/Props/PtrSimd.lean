import Verif.Lemmas.PtrSimd
import Verif.Props.PtrElementwise
import Verif.Props.Sums
/-
C57: the SIMD loops over slices stay inside the slice, whatever the slice, and compute the
list-level functions; so do the kernels built from them.  The row sums, which store through a
raw pointer, never have undefined behaviour, even for corrupt pointer arrays.
-/
namespace Lacuna
variable {V : Type}

/-- The in-place SIMD map over any slice: the values are mapped one by one. -/
theorem simd_map_ptr (f : V → V) (v : List V) (hlen : v.length ≤ usizeMax) {F : Nat} (hF : v.length < F) :
    map4P F f v = .ok (v.map f) := map4P_eq F f v hlen hF

/-- The SIMD reductions over any slice: lanes, then the tail. -/
theorem chunk_reductions_ptr (chunk : List V) (hlen : chunk.length ≤ usizeMax) {F : Nat}
    (hF : chunk.length < F) :
    (∀ [Zero V] [Add V], chunkSumP F chunk = .ok (chunkSum chunk)) ∧
    (∀ [One V] [Mul V], chunkProdP F chunk = .ok (chunkProd chunk)) ∧
    (∀ o : ExtOps V, chunkExtP F o chunk = .ok (chunkExt o chunk)) ∧
    (∀ [Zero V] [Add V] [Mul V], chunkSumsP F chunk = .ok (chunkSums chunk)) ∧
    (∀ [HasLt V] [HasAbs V] (eps : V),
      countSigP F eps chunk = .ok (chunk.countP fun v => flt eps (fabs v))) := by
  refine ⟨?_, ?_, ?_, ?_, ?_⟩
  · intros
    unfold chunkSumP chunkSum
    rw [simdFoldP_eq _ _ _ _ _ _ _ hlen hF, List.map_id]
  · intros
    unfold chunkProdP chunkProd
    split
    · rfl
    · rw [simdFoldP_eq _ _ _ _ _ _ _ hlen hF, List.map_id]
  · intro o
    unfold chunkExtP chunkExt
    split
    · rfl
    · rw [simdFoldP_eq _ _ _ _ _ _ _ hlen hF, List.map_id]
  · intros
    unfold chunkSumsP chunkSums
    split
    · rfl
    · rw [simdFoldP_eq _ _ _ _ _ _ _ hlen hF]; rfl
  · intro _ _ eps
    exact countSigP_eq F eps chunk hlen hF

/-- The chunks of a slice of representable length are representable. -/
theorem chunk_bound {data c : List V} {F : Nat} (h : c ∈ chunksOf 4096 data)
    (hlen : data.length ≤ usizeMax) (hF : data.length < F) : c.length ≤ usizeMax ∧ c.length < F := by
  have := chunksOf_length_le 4096 data c h
  omega

/-- C57 (global sums): the outcomes are exactly the list-level results. -/
theorem sum_ptr [Zero V] [Add V] (data : List V) (hlen : data.length ≤ usizeMax) {F : Nat}
    (hF : data.length < F) (out : Except Fault V) :
    SumPtrRun F data out ↔ ∃ r, SumRun data r ∧ out = .ok r :=
  reducePtr_iff (fun c hc => (chunk_reductions_ptr c (chunk_bound hc hlen hF).1
    (chunk_bound hc hlen hF).2).1) out

/-- C57 (global products). -/
theorem prod_ptr [Zero V] [One V] [Mul V] (full : Nat) (data : List V) (hlen : data.length ≤ usizeMax)
    {F : Nat} (hF : data.length < F) (out : Except Fault V) :
    ProdPtrRun F full data out ↔ ∃ r, ProdRun full data r ∧ out = .ok r := by
  unfold ProdPtrRun ProdRun
  split
  · simp
  split
  · simp
  · exact reducePtr_iff (fun c hc => (chunk_reductions_ptr c (chunk_bound hc hlen hF).1
      (chunk_bound hc hlen hF).2).2.1) out

/-- C57 (global minimum and maximum). -/
theorem minmax_ptr [Zero V] (o : ExtOps V) (nrows ncols : Nat) (data : List V)
    (hlen : data.length ≤ usizeMax) {F : Nat} (hF : data.length < F) (out : Except Fault V) :
    ExtPtrRun F o nrows ncols data out ↔ ∃ r, ExtRun o nrows ncols data r ∧ out = .ok r := by
  unfold ExtPtrRun ExtRun
  split
  · simp
  have h := reducePtr_iff (op := o.best) (e := o.far) (fun c hc => (chunk_reductions_ptr c
    (chunk_bound hc hlen hF).1 (chunk_bound hc hlen hF).2).2.2.1 o)
  constructor
  · rintro ⟨od, hod, h'⟩
    obtain ⟨d, hd, rfl⟩ := (h od).1 hod
    exact ⟨_, ⟨d, hd, rfl⟩, h'⟩
  · rintro ⟨r, ⟨d, hd, rfl⟩, rfl⟩
    exact ⟨.ok d, (h _).2 ⟨d, hd, rfl⟩, rfl⟩

/-- C57 (sums and sums of squares, for the variance). -/
theorem sums_ptr [Zero V] [Add V] [Mul V] (data : List V) (hlen : data.length ≤ usizeMax)
    {F : Nat} (hF : data.length < F) (out : Except Fault (V × V)) :
    SumsPtrRun F data out ↔ ∃ r, SumsRun data r ∧ out = .ok r :=
  reducePtr_iff (fun c hc => (chunk_reductions_ptr c (chunk_bound hc hlen hF).1
    (chunk_bound hc hlen hF).2).2.2.2.1) out

theorem simdMap_ptr (f : V → V) (data : List V) (hlen : data.length ≤ usizeMax)
    {F : Nat} (hF : data.length < F) (out : Except Fault (List V)) :
    SimdMapPtrRun F f data out ↔ out = .ok (data.map f) := by
  unfold SimdMapPtrRun
  split
  · rw [map4P_eq F f data hlen hF]
  · have hm : ∀ c ∈ chunksOf 4096 data, map4P F f c = .ok (c.map f) := fun c hc =>
      map4P_eq F f c (chunk_bound hc hlen hF).1 (chunk_bound hc hlen hF).2
    have hfl : ((chunksOf 4096 data).map fun c => c.map f).flatten = data.map f := by
      rw [← List.map_flatten, chunksOf_flatten (by decide)]
    constructor
    · rintro ⟨oe, hoe, h⟩
      rw [(parEach_ok hm oe).1 hoe] at h
      rw [← hfl]; exact h
    · rintro rfl
      exact ⟨_, (parEach_ok hm _).2 rfl, by rw [← hfl]⟩

/-- C57 (absolute value): exactly one outcome. -/
theorem abs_ptr [HasAbs V] (data : List V) (hlen : data.length ≤ usizeMax)
    {F : Nat} (hF : data.length < F) (out : Except Fault (List V)) :
    AbsPtrRun F data out ↔ out = .ok (data.map fabs) := simdMap_ptr fabs data hlen hF out

/-- C57 (multiplication by a scalar): exactly one outcome. -/
theorem mul_scalar_ptr [Zero V] [One V] [Mul V] [BEq V] (alpha : V) (data : List V)
    (hlen : data.length ≤ usizeMax) {F : Nat} (hF : data.length < F) (out : Except Fault (List V)) :
    MulScalarPtrRun F alpha data out ↔ out = .ok (if alpha == 1 then data
      else if alpha == 0 then data.map (fun _ => 0) else data.map (· * alpha)) := by
  unfold MulScalarPtrRun
  split
  · rfl
  split
  · simp
  · exact simdMap_ptr _ data hlen hF out

/-! ### Row sums -/

theorem sliceP_eq {α : Type} {v : List α} {s e : Nat} (h : s ≤ e) (h' : e ≤ v.length) :
    sliceP v s e = .ok ((v.take e).drop s) := by
  unfold sliceP; rw [if_pos ⟨h, h'⟩]

section
variable [Zero V] [Add V]

theorem lineSumP_eq {a : Comp V} (ha : a.PtrOk) (hm : a.Machine) (dbg : Bool) {F i : Nat} (hi : i < a.n)
    (hF : a.data.length < F) :
    lineSumP dbg F a i = .ok (chunkSum ((a.row i).map Prod.snd)) := by
  have l1 := ha.load hm dbg (i := i) (by omega)
  have l2 := ha.load hm dbg (i := i + 1) (by omega)
  have hl := ha.ptr_length
  have hle := ha.ptr_le_data (i := i + 1) (by omega)
  have hle' := ha.ptr_le_indices (i := i + 1) (by omega)
  have hmo := ha.ptr_mono' (i := i) (j := i + 1) (by omega) (by omega)
  have hmd := hm.data
  unfold i64Max at hmd
  rw [index_eq (by omega), ok_bind] at l1 l2
  unfold lineSumP
  rw [index_eq (by omega), ok_bind, l1, ok_bind, index_eq (by omega), ok_bind, l2, ok_bind,
    sliceP_eq hmo hle, ok_bind]
  have hrow : (a.row i).map Prod.snd = (a.data.take (a.ptr (i + 1))).drop (a.ptr i) := by
    have hrl := ha.row_length hi
    refine List.ext_getElem (by simp [hrl]; omega) fun k h1 h2 => ?_
    simp [Comp.row, Comp.entries]
  rw [hrow]
  refine (chunk_reductions_ptr _ ?_ ?_).1
  · simp; unfold usizeMax; omega
  · simp; omega

/-- C57 (row sums of CSR): for pointers in order and within the arrays there is exactly one
outcome, the sums computed by the list-level kernel.  The only law used is
`0 + 0 + 0 + 0 = 0`, for rows outside every range. -/
theorem row_sums_csr_ptr {a : Csr V} (ha : a.comp.PtrOk) (hm : a.comp.Machine)
    (h0 : (0 : V) + 0 + 0 + 0 = 0) (dbg : Bool) {F : Nat} (hF : a.data.length < F)
    (out : Except Fault (List V)) :
    RowSumsPtrRun dbg F a out ↔
      out = .ok ((List.range a.nrows).map fun i => chunkSum ((a.comp.row i).map Prod.snd)) := by
  unfold RowSumsPtrRun
  rw [show a.nrows = a.comp.n from rfl, ha.rangesP hm dbg]
  refine rangesPtr_iff (w := fun i => a.comp.ptr (i + 1) - a.comp.ptr i)
    (g := fun i => chunkSum ((a.comp.row i).map Prod.snd)) (fun i _ hw => ?_) (fun r hr => ?_) out
  · rw [Comp.row_nil_of_len hw]; exact h0
  · unfold rowSumsRangeP
    refine mapM_exceptOk _ fun i hi => ?_
    unfold rangeLines at hi
    rw [List.mem_range'_1] at hi
    have hin : i < a.comp.n := by omega
    rw [lineSumP_eq ha hm dbg hin hF, ok_bind, MutPtr.put_eq (by show 0 + i < a.comp.n; omega)]
    simp

/-- C57 (column sums of CSC). -/
theorem col_sums_csc_ptr {a : Csc V} (ha : a.comp.PtrOk) (hm : a.comp.Machine) (dbg : Bool) {F : Nat}
    (hF : a.data.length < F) (out : Except Fault (List V)) :
    ColSumsCscPtrRun dbg F a out ↔ out = .ok (colSumsCsc a) := by
  unfold ColSumsCscPtrRun colSumsCsc
  split
  · rfl
  · exact parCollect_ok (fun j hj => lineSumP_eq ha hm dbg hj hF) out

theorem NoUb.lineSumP (dbg : Bool) {F : Nat} (a : Comp V) (hlen : a.data.length ≤ usizeMax)
    (hF : a.data.length < F) (i : Nat) : NoUb (lineSumP dbg F a i) := by
  unfold Lacuna.lineSumP
  refine (NoUb.index _ _).bind fun _ _ => (NoUb.i64ToUsizeP _ _).bind fun s _ =>
    (NoUb.index _ _).bind fun _ _ => (NoUb.i64ToUsizeP _ _).bind fun e _ => ?_
  by_cases h : s ≤ e ∧ e ≤ a.data.length
  · rw [sliceP_eq h.1 h.2, ok_bind, (chunk_reductions_ptr _ (by simp; omega) (by simp; omega)).1]
    exact NoUb.ok _
  · unfold sliceP
    rw [if_neg h]
    exact NoUb.panic

theorem rowSumsRangeP_noUb (dbg : Bool) {F : Nat} (a : Comp V) (hlen : a.data.length ≤ usizeMax)
    (hF : a.data.length < F) {r : Nat × Nat} (hr : r.2 ≤ a.n) : NoUb (rowSumsRangeP dbg F a r) := by
  unfold rowSumsRangeP
  refine NoUb.mapM _ fun i hi => ?_
  unfold rangeLines at hi
  rw [List.mem_range'_1] at hi
  refine (NoUb.lineSumP dbg a hlen hF i).bind fun v _ => ?_
  rw [MutPtr.put_eq (by show 0 + i < a.n; omega)]
  exact NoUb.ok _

/-- The stores of a work item are to its own lines. -/
theorem mapM_put_positions {β : Type} {n : Nat} {f : Nat → Except Fault β} (l : List Nat)
    (evs : List (Nat × β)) (h : (l.mapM fun i => do
      let v ← f i
      MutPtr.put ⟨n, 0⟩ i v) = .ok evs) : evs.map Prod.fst = l := by
  induction l generalizing evs with
  | nil => cases h; rfl
  | cons i l ih =>
    rw [List.mapM_cons] at h
    cases hf : f i with
    | error e => rw [hf] at h; cases h
    | ok v =>
      rw [hf, ok_bind] at h
      unfold MutPtr.put MutPtr.add at h
      split at h
      · rw [ok_bind] at h
        unfold MutPtr.write at h
        split at h
        · rw [ok_bind] at h
          cases hm : (l.mapM fun i => do
            let v ← f i
            MutPtr.put (α := β) ⟨n, 0⟩ i v) with
          | error e =>
            unfold MutPtr.put MutPtr.add MutPtr.write at hm
            rw [hm] at h; cases h
          | ok es =>
            have := ih es hm
            unfold MutPtr.put MutPtr.add MutPtr.write at hm
            rw [hm] at h
            cases h
            simp [this]
        · cases h
      · cases h

/-- Work items over disjoint ranges, each storing to its own lines: no race. -/
theorem RangesPtr.noUb {β : Type} {items : Except Fault (List (Nat × Nat))}
    {item : Nat × Nat → Except Fault (List (Nat × β))} {init : List β} {out : Except Fault (List β)}
    (h : RangesPtr items item init out) (hu : NoUb items)
    (hd : ∀ R, items = .ok R → R.Pairwise (fun p q => p.2 ≤ q.1) ∧ ∀ r ∈ R, NoUb (item r) ∧
      ∀ evs, item r = .ok evs → evs.map Prod.fst = rangeLines r) : NoUb out := by
  unfold RangesPtr at h
  cases items with
  | error e => subst h; intro h'; exact hu (by cases h'; rfl)
  | ok R =>
    obtain ⟨h1, h2⟩ := hd R rfl
    obtain ⟨oe, hoe, h⟩ := h
    cases oe with
    | error e =>
      subst h
      obtain ⟨r, hr, hre⟩ := hoe
      have := (h2 r hr).1
      intro h'; apply this; rw [hre]; cases h'; rfl
    | ok evs =>
      have hR : evs.map (fun e => e.map Prod.fst) = R.map rangeLines := by
        change R.map item = evs.map .ok at hoe
        clear h
        induction R generalizing evs with
        | nil => cases evs with
          | nil => rfl
          | cons => cases hoe
        | cons r R ih => cases evs with
          | nil => cases hoe
          | cons e evs =>
            rw [List.map_cons, List.map_cons, List.cons.injEq] at hoe
            rw [List.map_cons, List.map_cons, (h2 r (by simp)).2 e hoe.1]
            congr 1
            refine ih (NoUb.ok _) ?_ (List.Pairwise.of_cons h1) (fun r hr => h2 r (by simp [hr])) evs hoe.2
            intro R' hR'
            cases hR'
            exact ⟨List.Pairwise.of_cons h1, fun r hr => h2 r (by simp [hr])⟩
      have hrf : raceFree1 evs := by
        have hp : (evs.map fun e => e.map Prod.fst).Pairwise fun s t => ∀ p ∈ s, p ∉ t := by
          rw [hR]
          refine List.Pairwise.map _ (fun p q hpq x hx hy => ?_) h1
          unfold rangeLines at hx hy
          rw [List.mem_range'_1] at hx hy
          omega
        exact List.pairwise_map.1 hp
      rcases h with ⟨hn, _⟩ | ⟨_, w, _, rfl⟩
      · exact absurd hrf hn
      · exact NoUb.ok _

/-- C57 (no undefined behaviour on corrupt input): whatever the three arrays and the shape,
`row_sums_f64` returns or panics; it never reads or writes outside a buffer and has no race. -/
theorem row_sums_csr_no_ub (a : Csr V) (hlen : a.data.length ≤ usizeMax) (dbg : Bool) {F : Nat}
    (hF : a.data.length < F) (out : Except Fault (List V)) (h : RowSumsPtrRun dbg F a out) :
    out ≠ .error .ub := by
  refine RangesPtr.noUb h (NoUb.rangesP _ _ _ _ _ _ _) fun R hR => ?_
  obtain ⟨h1, h2⟩ := rangesP_disjoint a.nrows 0 0 0 R (by simp) hR
  refine ⟨h2, fun r hr => ⟨rowSumsRangeP_noUb dbg a.comp hlen hF (by
    have := (h1 r hr).2
    show r.2 ≤ a.nrows
    omega), fun evs he => mapM_put_positions _ evs he⟩⟩

/-- C57: the same for `col_sums_csc_f64`. -/
theorem col_sums_csc_no_ub (a : Csc V) (hlen : a.data.length ≤ usizeMax) (dbg : Bool) {F : Nat}
    (hF : a.data.length < F) (out : Except Fault (List V)) (h : ColSumsCscPtrRun dbg F a out) :
    out ≠ .error .ub := by
  unfold ColSumsCscPtrRun at h
  split at h
  · rw [h]; exact NoUb.ok _
  · cases out with
    | ok => exact NoUb.ok _
    | error e =>
      obtain ⟨j, _, hj⟩ := h
      have := NoUb.lineSumP dbg a.comp hlen hF j
      rw [hj] at this
      intro h'; apply this; cases h'; rfl

end

/-- C57: the row sums are those of the dense matrix (exact arithmetic). -/
theorem row_sums_csr_ptr_correct [AddCommMonoid V] {a : Csr V} (ha : a.WFU) (hm : a.comp.Machine)
    (dbg : Bool) {F : Nat} (hF : a.data.length < F) (out : Except Fault (List V)) :
    RowSumsPtrRun dbg F a out ↔ out = .ok ((List.range a.nrows).map fun i => (a.rowCells i).sum) := by
  rw [row_sums_csr_ptr (Comp.WFU.ptrOk ha) hm (by simp) dbg hF]
  have : ((List.range a.nrows).map fun i => chunkSum ((a.comp.row i).map Prod.snd))
      = (List.range a.nrows).map fun i => (a.rowCells i).sum := by
    refine List.map_congr_left fun i _ => ?_
    rw [chunkSum_eq]
    exact (Comp.WFU.line_sum ha i).symm
  rw [this]

/-- C57: the outcome of the global sum is the sum of the stored values (exact arithmetic). -/
theorem sum_ptr_correct [AddCommMonoid V] (data : List V) (hlen : data.length ≤ usizeMax) {F : Nat}
    (hF : data.length < F) (out : Except Fault V) : SumPtrRun F data out ↔ out = .ok data.sum := by
  rw [sum_ptr data hlen hF]
  constructor
  · rintro ⟨r, hr, rfl⟩
    rw [sumRun_eq hr]
  · rintro rfl
    obtain ⟨r, hr⟩ := rayon_exists (· + ·) (0 : V) ((chunksOf 4096 data).map chunkSum)
    exact ⟨r, hr, by rw [sumRun_eq hr]⟩

/-! ### Examples -/

/-- Seven values: one block of four lanes and a tail of three. -/
example : map4P 8 (fun x : Int => x * 2) [1, 2, 3, 4, 5, 6, 7] = .ok [2, 4, 6, 8, 10, 12, 14] :=
  simd_map_ptr _ _ (by decide) (by decide)

example : chunkSumP 8 [1, 2, 3, 4, 5, 6, (7 : Int)] = .ok 28 := rfl

example (dbg : Bool) (out : Except Fault (List Int)) :
    RowSumsPtrRun dbg 5 exA out ↔ out = .ok [11, 7] :=
  row_sums_csr_ptr (Comp.WF.ptrOk exA_wf) exA_machine rfl dbg (by decide) out

/-- Corrupt pointers: the second row would start behind its end. -/
def exCorrupt : Csr Int := ⟨2, 2, [0, 9, -1], [0], [5]⟩

example (dbg : Bool) (out : Except Fault (List Int)) (h : RowSumsPtrRun dbg 5 exCorrupt out) :
    out ≠ .error .ub := row_sums_csr_no_ub exCorrupt (by decide) dbg (by decide) out h

end Lacuna
