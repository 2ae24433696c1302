import Verif.Lemmas.Transpose
import Verif.Props.Convert
/-
C28 transposition; C46 (first part) transposition commutes with elementwise arithmetic.
-/
namespace Lacuna
universe u
variable {V : Type u}

/-! ### C28 -/

theorem transposeRun_eq' [Zero V] {a r : Comp V} (hw : a.WFU) (hd : a.NoRep) (hf : a.Fits)
    {sort : List (Int × V) → List (Int × V)} (hsort : IsPairSort sort) {threads : Nat}
    (h : TransposeRun sort threads a r) : r = tcomp a a.events := by
  unfold TransposeRun at h
  simp only at h
  split at h
  · exact transposeA_eq hw hd hf (Nat.le_max_right _ _) h
  · exact transposeB_eq hw hd hf hsort h

theorem transposeRun_eq [Zero V] {a r : Comp V} (hw : a.WF) (hf : a.Fits) {sort : List (Int × V) → List (Int × V)}
    (hsort : IsPairSort sort) {threads : Nat} (h : TransposeRun sort threads a r) : r = tcomp a a.events :=
  transposeRun_eq' hw.wfu hw.noRep hf hsort h

theorem transposeRun_of' [Zero V] {a : Comp V} (hw : a.WFU) (hd : a.NoRep) (hf : a.Fits)
    {sort : List (Int × V) → List (Int × V)} (hsort : IsPairSort sort) (threads : Nat) :
    TransposeRun sort threads a (tcomp a a.events) := by
  unfold TransposeRun
  simp only
  split
  · exact transposeA_of hw hd hf (Nat.le_max_right _ _)
  · obtain ⟨r, hr⟩ := transposeB_exists hw hf sort
    rw [← transposeB_eq hw hd hf hsort hr]; exact hr

theorem transposeRun_of [Zero V] {a : Comp V} (hw : a.WF) (hf : a.Fits) {sort : List (Int × V) → List (Int × V)}
    (hsort : IsPairSort sort) (threads : Nat) : TransposeRun sort threads a (tcomp a a.events) :=
  transposeRun_of' hw.wfu hw.noRep hf hsort threads

theorem tcomp_n (a : Comp V) (s : List (Nat × (Int × V))) : (tcomp a s).n = a.m := by simp [tcomp, Comp.ofRows]
theorem tcomp_m (a : Comp V) (s : List (Nat × (Int × V))) : (tcomp a s).m = a.n := rfl
theorem tcomp_length {a : Comp V} (hw : a.WFU) (hf : a.Fits) {s : List (Nat × (Int × V))} (hs : Interleaving a s) :
    (tcomp a s).data.length = a.data.length := by
  obtain ⟨_, _, _, _, _, _, g⟩ := claimAll_run hw hf hs
  simp only [tcomp, Comp.ofRows, List.length_map]
  exact g.symm

/-- C28 (CSR): whatever the number of threads, the strategy, the interleaving and the sorting
routine, the transpose is well formed, has the swapped shape, the same number of stored
entries, and at (j, i) exactly what the input has at (i, j). -/
theorem transpose_csr_correct [Zero V] [Add V] {a r : Csr V} (hw : a.WF) (hf : a.comp.Fits)
    {sort : List (Int × V) → List (Int × V)} (hsort : IsPairSort sort) {threads : Nat}
    (h : TransposeCsrRun sort threads a r) :
    r.WF ∧ r.nrows = a.ncols ∧ r.ncols = a.nrows ∧ r.data.length = a.data.length ∧
      (∀ i j, r.stored j i = a.stored i j) ∧ ∀ i j, r.val j i = a.val i j := by
  have e := transposeRun_eq hw hf hsort h
  have hs := interleaving_events a.comp
  refine ⟨?_, (congrArg Comp.n e).trans (tcomp_n _ _), congrArg Comp.m e,
    (congrArg (fun c => c.data.length) e).trans (tcomp_length (Comp.WF.wfu hw) hf hs), fun i j => ?_, fun i j => ?_⟩
  · unfold Csr.WF; rw [e]; exact tcomp_events_wf hw.noRep hf
  · unfold Csr.stored; rw [e]; exact tcomp_stored (Comp.WF.wfu hw) hs hf i j
  · unfold Csr.val; rw [e]; exact tcomp_val (Comp.WF.wfu hw) hs hf i j

/-- C28 (CSC). -/
theorem transpose_csc_correct [Zero V] [Add V] {a r : Csc V} (hw : a.WF) (hf : a.comp.Fits)
    {sort : List (Int × V) → List (Int × V)} (hsort : IsPairSort sort) {threads : Nat}
    (h : TransposeCscRun sort threads a r) :
    r.WF ∧ r.nrows = a.ncols ∧ r.ncols = a.nrows ∧ r.data.length = a.data.length ∧
      (∀ i j, r.stored j i = a.stored i j) ∧ ∀ i j, r.val j i = a.val i j := by
  have e := transposeRun_eq hw hf hsort h
  have hs := interleaving_events a.comp
  refine ⟨?_, congrArg Comp.m e, (congrArg Comp.n e).trans (tcomp_n _ _),
    (congrArg (fun c => c.data.length) e).trans (tcomp_length (Comp.WF.wfu hw) hf hs), fun i j => ?_, fun i j => ?_⟩
  · unfold Csc.WF; rw [e]; exact tcomp_events_wf hw.noRep hf
  · unfold Csc.stored; rw [e]; exact tcomp_stored (Comp.WF.wfu hw) hs hf j i
  · unfold Csc.val; rw [e]; exact tcomp_val (Comp.WF.wfu hw) hs hf j i

/-- Two runs with any thread counts, schedules and sorts give the identical matrix. -/
theorem transpose_csr_unique [Zero V] {a r s : Csr V} (hw : a.WF) (hf : a.comp.Fits)
    {s1 s2 : List (Int × V) → List (Int × V)} (h1 : IsPairSort s1) (h2 : IsPairSort s2) {t1 t2 : Nat}
    (hr : TransposeCsrRun s1 t1 a r) (hs : TransposeCsrRun s2 t2 a s) : r = s :=
  Csr.comp_inj ((transposeRun_eq hw hf h1 hr).trans (transposeRun_eq hw hf h2 hs).symm)

theorem transpose_csc_unique [Zero V] {a r s : Csc V} (hw : a.WF) (hf : a.comp.Fits)
    {s1 s2 : List (Int × V) → List (Int × V)} (h1 : IsPairSort s1) (h2 : IsPairSort s2) {t1 t2 : Nat}
    (hr : TransposeCscRun s1 t1 a r) (hs : TransposeCscRun s2 t2 a s) : r = s :=
  Csc.comp_inj ((transposeRun_eq hw hf h1 hr).trans (transposeRun_eq hw hf h2 hs).symm)

/-- C28: sorted input is not needed.  A matrix whose rows store each column at most once, in
any order, has a well-formed (sorted) transpose; so transposing repairs the order lost by the
conversions of C27. -/
theorem transpose_csr_sorts [Zero V] [Add V] {a r : Csr V} (hw : a.WFU) (hd : a.comp.NoRep) (hf : a.comp.Fits)
    {sort : List (Int × V) → List (Int × V)} (hsort : IsPairSort sort) {threads : Nat}
    (h : TransposeCsrRun sort threads a r) :
    r.WF ∧ r.nrows = a.ncols ∧ r.ncols = a.nrows ∧ r.data.length = a.data.length ∧
      (∀ i j, r.stored j i = a.stored i j) ∧ ∀ i j, r.val j i = a.val i j := by
  have e := transposeRun_eq' hw hd hf hsort h
  have hs := interleaving_events a.comp
  refine ⟨?_, (congrArg Comp.n e).trans (tcomp_n _ _), congrArg Comp.m e,
    (congrArg (fun c => c.data.length) e).trans (tcomp_length hw hf hs), fun i j => ?_, fun i j => ?_⟩
  · unfold Csr.WF; rw [e]; exact tcomp_events_wf hd hf
  · unfold Csr.stored; rw [e]; exact tcomp_stored hw hs hf i j
  · unfold Csr.val; rw [e]; exact tcomp_val hw hs hf i j

theorem transpose_csc_sorts [Zero V] [Add V] {a r : Csc V} (hw : a.WFU) (hd : a.comp.NoRep) (hf : a.comp.Fits)
    {sort : List (Int × V) → List (Int × V)} (hsort : IsPairSort sort) {threads : Nat}
    (h : TransposeCscRun sort threads a r) :
    r.WF ∧ r.nrows = a.ncols ∧ r.ncols = a.nrows ∧ r.data.length = a.data.length ∧
      (∀ i j, r.stored j i = a.stored i j) ∧ ∀ i j, r.val j i = a.val i j := by
  have e := transposeRun_eq' hw hd hf hsort h
  have hs := interleaving_events a.comp
  refine ⟨?_, congrArg Comp.m e, (congrArg Comp.n e).trans (tcomp_n _ _),
    (congrArg (fun c => c.data.length) e).trans (tcomp_length hw hf hs), fun i j => ?_, fun i j => ?_⟩
  · unfold Csc.WF; rw [e]; exact tcomp_events_wf hd hf
  · unfold Csc.stored; rw [e]; exact tcomp_stored hw hs hf j i
  · unfold Csc.val; rw [e]; exact tcomp_val hw hs hf j i

theorem transpose_csr_unsorted_exists [Zero V] {a : Csr V} (hw : a.WFU) (hd : a.comp.NoRep) (hf : a.comp.Fits)
    {sort : List (Int × V) → List (Int × V)} (hsort : IsPairSort sort) (threads : Nat) :
    ∃ r, TransposeCsrRun sort threads a r :=
  ⟨(tcomp a.comp a.comp.events).toCsr, transposeRun_of' hw hd hf hsort threads⟩

/-- Both strategies agree, for every number of tiles. -/
theorem transpose_strategies_agree [Zero V] {a r s : Comp V} (hw : a.WF) (hf : a.Fits)
    {sort : List (Int × V) → List (Int × V)} (hsort : IsPairSort sort) {tiles : Nat} (ht : 1 ≤ tiles)
    (hA : TransposeARun tiles a r) (hB : TransposeBRun sort a s) : r = s :=
  (transposeA_eq hw.wfu hw.noRep hf ht hA).trans (transposeB_eq hw.wfu hw.noRep hf hsort hB).symm

/-- No out-of-bounds access: a run exists (for every tile count, for every sort). -/
theorem transposeA_exists [Zero V] {a : Comp V} (hw : a.WF) (hf : a.Fits) {tiles : Nat} (ht : 1 ≤ tiles) :
    ∃ r, TransposeARun tiles a r := ⟨_, transposeA_of hw.wfu hw.noRep hf ht⟩
theorem transpose_csr_exists [Zero V] {a : Csr V} (hw : a.WF) (hf : a.comp.Fits)
    {sort : List (Int × V) → List (Int × V)} (hsort : IsPairSort sort) (threads : Nat) :
    ∃ r, TransposeCsrRun sort threads a r :=
  ⟨(tcomp a.comp a.comp.events).toCsr, transposeRun_of hw hf hsort threads⟩
theorem transpose_csc_exists [Zero V] {a : Csc V} (hw : a.WF) (hf : a.comp.Fits)
    {sort : List (Int × V) → List (Int × V)} (hsort : IsPairSort sort) (threads : Nat) :
    ∃ r, TransposeCscRun sort threads a r :=
  ⟨(tcomp a.comp a.comp.events).toCsc, transposeRun_of hw hf hsort threads⟩

/-- C28: transposing twice returns the identical matrix. -/
theorem transpose_csr_twice [Zero V] {a r s : Csr V} (hw : a.WF) (hf : a.comp.Fits) (hm : (a.ncols : Int) ≤ i64Max)
    {s1 s2 : List (Int × V) → List (Int × V)} (h1 : IsPairSort s1) (h2 : IsPairSort s2) {t1 t2 : Nat}
    (hr : TransposeCsrRun s1 t1 a r) (hs : TransposeCsrRun s2 t2 r s) : s = a := by
  let _ : Add V := ⟨fun x _ => x⟩
  obtain ⟨r1, r2, r3, r4, r5, -⟩ := transpose_csr_correct hw hf h1 hr
  obtain ⟨k1, k2, k3, -, k5, -⟩ := transpose_csr_correct r1
    ⟨by show (r.nrows : Int) ≤ _; rw [r2]; exact hm, by show (r.data.length : Int) ≤ _; rw [r4]; exact hf.2⟩ h2 hs
  exact Csr.comp_inj (Comp.WF.ext_stored k1 hw (k2.trans r3) (k3.trans r2) (fun i j => (k5 j i).trans (r5 i j)))

theorem transpose_csc_twice [Zero V] {a r s : Csc V} (hw : a.WF) (hf : a.comp.Fits) (hm : (a.nrows : Int) ≤ i64Max)
    {s1 s2 : List (Int × V) → List (Int × V)} (h1 : IsPairSort s1) (h2 : IsPairSort s2) {t1 t2 : Nat}
    (hr : TransposeCscRun s1 t1 a r) (hs : TransposeCscRun s2 t2 r s) : s = a := by
  let _ : Add V := ⟨fun x _ => x⟩
  obtain ⟨r1, r2, r3, r4, r5, -⟩ := transpose_csc_correct hw hf h1 hr
  obtain ⟨k1, k2, k3, -, k5, -⟩ := transpose_csc_correct r1
    ⟨by show (r.ncols : Int) ≤ _; rw [r3]; exact hm, by show (r.data.length : Int) ≤ _; rw [r4]; exact hf.2⟩ h2 hs
  exact Csc.comp_inj (Comp.WF.ext_stored k1 hw (k3.trans r2) (k2.trans r3) (fun i j => (k5 i j).trans (r5 j i)))

/-- C28 (COO): the coordinates are swapped; duplicates and order of the input are kept. -/
theorem transpose_coo_correct [Zero V] [Add V] (a : Coo V) :
    (transposeCoo a).nrows = a.ncols ∧ (transposeCoo a).ncols = a.nrows ∧
      (transposeCoo a).triples = a.triples.map (fun t => ((t.1.2, t.1.1), t.2)) ∧
      (∀ i j, (transposeCoo a).val j i = a.val i j) ∧ (a.WF → (transposeCoo a).WF) ∧
      transposeCoo (transposeCoo a) = a :=
  ⟨rfl, rfl, a.tr_triples, fun i j => a.tr_val i j, fun h => h.tr, rfl⟩

/-- The library's sort on pairs. -/
def pairLe (x y : Int × V) : Prop := x.1 ≤ y.1
instance : DecidableRel (pairLe (V := V)) := fun x y => inferInstanceAs (Decidable (x.1 ≤ y.1))
instance : Std.Total (pairLe (V := V)) := ⟨fun x y => by unfold pairLe; omega⟩
instance : IsTrans (Int × V) (pairLe (V := V)) := ⟨fun x y z h1 h2 => by unfold pairLe at *; omega⟩
theorem isPairSort_insertionSort : IsPairSort (List.insertionSort (pairLe (V := V))) :=
  fun l => ⟨List.perm_insertionSort _ l, List.pairwise_insertionSort (pairLe (V := V)) l⟩

example : exA.WF ∧ exA.comp.Fits ∧ IsPairSort (List.insertionSort (pairLe (V := Int))) ∧
    TransposeCsrRun (List.insertionSort pairLe) 2 exA ⟨3, 2, [0, 1, 2, 3], [0, 1, 0], [5, 7, 6]⟩ :=
  ⟨exA_wf, ⟨by decide, by decide⟩, isPairSort_insertionSort,
    by
      have := transposeRun_of exA_wf ⟨by decide, by decide⟩ (isPairSort_insertionSort (V := Int)) 2
      exact this⟩
example : exC.WF ∧ exC.comp.Fits ∧
    TransposeCscRun (List.insertionSort pairLe) 5 exC ⟨2, 3, [0, 1, 2, 3], [0, 1, 0], [5, 7, 6]⟩ :=
  ⟨exC_wf, ⟨by decide, by decide⟩,
    by
      have := transposeRun_of exC_wf ⟨by decide, by decide⟩ (isPairSort_insertionSort (V := Int)) 5
      exact this⟩

/-- The well-formedness hypothesis cannot be dropped: strategy A reads the four positions of a
group before advancing any, so two equal column indices inside a group share a slot.  The
unvalidated row (0:1, 0:2, 1:3, 2:4) is transposed to a matrix whose value at (0, 0) is 2
instead of 3: an entry is lost (and, had the buffer not been zeroed, an uninitialised slot read). -/
theorem transpose_duplicates_lost :
    ∃ (a r : Csr Int), a.WFU ∧ a.comp.Fits ∧ TransposeCsrRun (List.insertionSort pairLe) 1 a r ∧
      a.val 0 0 = 3 ∧ r.val 0 0 = 2 := by
  refine ⟨⟨1, 3, [0, 4], [0, 0, 1, 2], [1, 2, 3, 4]⟩, ⟨3, 1, [0, 2, 3, 4], [0, 0, 0, 0], [2, 0, 3, 4]⟩,
    ?_, ⟨by decide, by decide⟩, ?_, by decide, by decide⟩
  · refine ⟨rfl, rfl, rfl, rfl, by decide, by decide, by decide⟩
  · unfold TransposeCsrRun TransposeRun
    rw [if_pos (by decide)]
    refine ⟨[[2, 1, 1]], by rw [show max 1 1 = 1 from rfl]; decide,
      [[(0, (0, 1)), (0, (0, 2)), (2, (0, 3)), (3, (0, 4))]], by rw [show max 1 1 = 1 from rfl]; decide,
      _, _, List.Perm.refl _, List.Perm.refl _, by decide⟩

/-! ### C46: transposition commutes with elementwise arithmetic -/

section commute
variable [Zero V] {s1 s2 s3 : List (Int × V) → List (Int × V)} {t1 t2 t3 : Nat}

/-- Generic form: kernels determined cell by cell by the stored entries commute with transposition. -/
theorem transpose_csr_cellwise {F : Option V → Option V → Option V} {a b c at' bt ct r : Csr V}
    (h1 : IsPairSort s1) (h2 : IsPairSort s2) (h3 : IsPairSort s3)
    (ha : a.WF) (hb : b.WF) (fa : a.comp.Fits) (fb : b.comp.Fits) (fc : c.comp.Fits)
    (ra : TransposeCsrRun s1 t1 a at') (rb : TransposeCsrRun s2 t2 b bt) (rc : TransposeCsrRun s3 t3 c r)
    (wc : c.WF) (cn : c.nrows = a.nrows) (cm : c.ncols = a.ncols)
    (hc : ∀ i j, c.stored i j = F (a.stored i j) (b.stored i j))
    (wct : ct.WF) (ctn : ct.nrows = at'.nrows) (ctm : ct.ncols = at'.ncols)
    (hct : ∀ i j, ct.stored i j = F (at'.stored i j) (bt.stored i j)) : r = ct := by
  let _ : Add V := ⟨fun x _ => x⟩
  obtain ⟨-, a2, a3, -, a5, -⟩ := transpose_csr_correct ha fa h1 ra
  obtain ⟨-, -, -, -, b5, -⟩ := transpose_csr_correct hb fb h2 rb
  obtain ⟨c1, c2, c3, -, c5, -⟩ := transpose_csr_correct wc fc h3 rc
  exact Csr.comp_inj (Comp.WF.ext_stored c1 wct (by show r.nrows = ct.nrows; rw [c2, cm, ctn, a2])
    (by show r.ncols = ct.ncols; rw [c3, cn, ctm, a3]) (fun i j => by
      show r.stored i j = ct.stored i j
      rw [c5, hc, hct, a5, b5]))

theorem transpose_csc_cellwise {F : Option V → Option V → Option V} {a b c at' bt ct r : Csc V}
    (h1 : IsPairSort s1) (h2 : IsPairSort s2) (h3 : IsPairSort s3)
    (ha : a.WF) (hb : b.WF) (fa : a.comp.Fits) (fb : b.comp.Fits) (fc : c.comp.Fits)
    (ra : TransposeCscRun s1 t1 a at') (rb : TransposeCscRun s2 t2 b bt) (rc : TransposeCscRun s3 t3 c r)
    (wc : c.WF) (cn : c.nrows = a.nrows) (cm : c.ncols = a.ncols)
    (hc : ∀ i j, c.stored i j = F (a.stored i j) (b.stored i j))
    (wct : ct.WF) (ctn : ct.nrows = at'.nrows) (ctm : ct.ncols = at'.ncols)
    (hct : ∀ i j, ct.stored i j = F (at'.stored i j) (bt.stored i j)) : r = ct := by
  let _ : Add V := ⟨fun x _ => x⟩
  obtain ⟨-, a2, a3, -, a5, -⟩ := transpose_csc_correct ha fa h1 ra
  obtain ⟨-, -, -, -, b5, -⟩ := transpose_csc_correct hb fb h2 rb
  obtain ⟨c1, c2, c3, -, c5, -⟩ := transpose_csc_correct wc fc h3 rc
  exact Csc.comp_inj (Comp.WF.ext_stored c1 wct (by show r.ncols = ct.ncols; rw [c3, cn, ctm, a3])
    (by show r.nrows = ct.nrows; rw [c2, cm, ctn, a2]) (fun i j => by
      show r.stored j i = ct.stored j i
      rw [c5, hc, hct, a5, b5]))

variable {a b c at' bt r : Csr V} {x y z xt yt q : Csc V}

/-- C46: (A + B)ᵀ = Aᵀ + Bᵀ, identical arrays, no algebraic law assumed. -/
theorem transpose_add_csr [Add V] [BEq V] (h1 : IsPairSort s1) (h2 : IsPairSort s2) (h3 : IsPairSort s3)
    (ha : a.WF) (hb : b.WF) (fa : a.comp.Fits) (fb : b.comp.Fits) (hadd : addCsr a b = some c) (fc : c.comp.Fits)
    (ra : TransposeCsrRun s1 t1 a at') (rb : TransposeCsrRun s2 t2 b bt) (rc : TransposeCsrRun s3 t3 c r) :
    addCsr at' bt = some r := by
  obtain ⟨hn, hm⟩ : a.nrows = b.nrows ∧ a.ncols = b.ncols := by
    by_contra h; rw [addCsr, binCsr_none_iff.2 h] at hadd; cases hadd
  obtain ⟨c', e1, wc, cn, cm, cs, -⟩ := add_csr_stored ha hb hn hm
  rw [hadd] at e1; cases e1
  obtain ⟨wa, a2, a3, -⟩ := transpose_csr_correct ha fa h1 ra
  obtain ⟨wb, b2, b3, -⟩ := transpose_csr_correct hb fb h2 rb
  obtain ⟨d, e2, wd, dn, dm, ds, -⟩ := add_csr_stored wa wb (by rw [a2, b2, hm]) (by rw [a3, b3, hn])
  rw [e2, transpose_csr_cellwise h1 h2 h3 ha hb fa fb fc ra rb rc wc cn cm cs wd dn dm ds]

theorem transpose_add_csc [Add V] [BEq V] (h1 : IsPairSort s1) (h2 : IsPairSort s2) (h3 : IsPairSort s3)
    (ha : x.WF) (hb : y.WF) (fa : x.comp.Fits) (fb : y.comp.Fits) (hadd : addCsc x y = some z) (fc : z.comp.Fits)
    (ra : TransposeCscRun s1 t1 x xt) (rb : TransposeCscRun s2 t2 y yt) (rc : TransposeCscRun s3 t3 z q) :
    addCsc xt yt = some q := by
  obtain ⟨hn, hm⟩ : x.nrows = y.nrows ∧ x.ncols = y.ncols := by
    by_contra h; rw [addCsc, binCsc_none_iff.2 h] at hadd; cases hadd
  obtain ⟨c', e1, wc, cn, cm, cs, -⟩ := add_csc_stored ha hb hn hm
  rw [hadd] at e1; cases e1
  obtain ⟨wa, a2, a3, -⟩ := transpose_csc_correct ha fa h1 ra
  obtain ⟨wb, b2, b3, -⟩ := transpose_csc_correct hb fb h2 rb
  obtain ⟨d, e2, wd, dn, dm, ds, -⟩ := add_csc_stored wa wb (by rw [a2, b2, hm]) (by rw [a3, b3, hn])
  rw [e2, transpose_csc_cellwise h1 h2 h3 ha hb fa fb fc ra rb rc wc cn cm cs wd dn dm ds]

/-- C46: (A - B)ᵀ = Aᵀ - Bᵀ. -/
theorem transpose_sub_csr [Add V] [Sub V] [BEq V] (h1 : IsPairSort s1) (h2 : IsPairSort s2) (h3 : IsPairSort s3)
    (ha : a.WF) (hb : b.WF) (fa : a.comp.Fits) (fb : b.comp.Fits) (hsub : subCsr a b = some c) (fc : c.comp.Fits)
    (ra : TransposeCsrRun s1 t1 a at') (rb : TransposeCsrRun s2 t2 b bt) (rc : TransposeCsrRun s3 t3 c r) :
    subCsr at' bt = some r := by
  obtain ⟨hn, hm⟩ : a.nrows = b.nrows ∧ a.ncols = b.ncols := by
    by_contra h; rw [subCsr, binCsr_none_iff.2 h] at hsub; cases hsub
  obtain ⟨c', e1, wc, cn, cm, cs, -⟩ := sub_csr_stored ha hb hn hm
  rw [hsub] at e1; cases e1
  obtain ⟨wa, a2, a3, -⟩ := transpose_csr_correct ha fa h1 ra
  obtain ⟨wb, b2, b3, -⟩ := transpose_csr_correct hb fb h2 rb
  obtain ⟨d, e2, wd, dn, dm, ds, -⟩ := sub_csr_stored wa wb (by rw [a2, b2, hm]) (by rw [a3, b3, hn])
  rw [e2, transpose_csr_cellwise h1 h2 h3 ha hb fa fb fc ra rb rc wc cn cm cs wd dn dm ds]

theorem transpose_sub_csc [Add V] [Sub V] [BEq V] (h1 : IsPairSort s1) (h2 : IsPairSort s2) (h3 : IsPairSort s3)
    (ha : x.WF) (hb : y.WF) (fa : x.comp.Fits) (fb : y.comp.Fits) (hsub : subCsc x y = some z) (fc : z.comp.Fits)
    (ra : TransposeCscRun s1 t1 x xt) (rb : TransposeCscRun s2 t2 y yt) (rc : TransposeCscRun s3 t3 z q) :
    subCsc xt yt = some q := by
  obtain ⟨hn, hm⟩ : x.nrows = y.nrows ∧ x.ncols = y.ncols := by
    by_contra h; rw [subCsc, binCsc_none_iff.2 h] at hsub; cases hsub
  obtain ⟨c', e1, wc, cn, cm, cs, -⟩ := sub_csc_stored ha hb hn hm
  rw [hsub] at e1; cases e1
  obtain ⟨wa, a2, a3, -⟩ := transpose_csc_correct ha fa h1 ra
  obtain ⟨wb, b2, b3, -⟩ := transpose_csc_correct hb fb h2 rb
  obtain ⟨d, e2, wd, dn, dm, ds, -⟩ := sub_csc_stored wa wb (by rw [a2, b2, hm]) (by rw [a3, b3, hn])
  rw [e2, transpose_csc_cellwise h1 h2 h3 ha hb fa fb fc ra rb rc wc cn cm cs wd dn dm ds]

/-- All intersection kernels (product, quotient, floor quotient, remainder, power) at once. -/
theorem transpose_inter_csr [Add V] {keep : V → V → Bool} {cell : V → V → Option V}
    (hk : ∀ x y, keep x y = (cell x y).isSome) (h1 : IsPairSort s1) (h2 : IsPairSort s2) (h3 : IsPairSort s3)
    (ha : a.WF) (hb : b.WF) (fa : a.comp.Fits) (fb : b.comp.Fits)
    (hc : binCsr (interRowCount keep) (interRowFill cell) a b = some c) (fc : c.comp.Fits)
    (ra : TransposeCsrRun s1 t1 a at') (rb : TransposeCsrRun s2 t2 b bt) (rc : TransposeCsrRun s3 t3 c r) :
    binCsr (interRowCount keep) (interRowFill cell) at' bt = some r := by
  obtain ⟨hn, hm⟩ : a.nrows = b.nrows ∧ a.ncols = b.ncols := by
    by_contra h; rw [binCsr_none_iff.2 h] at hc; cases hc
  obtain ⟨c', e1, wc, cn, cm, cs, -⟩ := inter_csr_stored hk ha hb hn hm
  rw [hc] at e1; cases e1
  obtain ⟨wa, a2, a3, -⟩ := transpose_csr_correct ha fa h1 ra
  obtain ⟨wb, b2, b3, -⟩ := transpose_csr_correct hb fb h2 rb
  obtain ⟨d, e2, wd, dn, dm, ds, -⟩ := inter_csr_stored hk wa wb (by rw [a2, b2, hm]) (by rw [a3, b3, hn])
  rw [e2, transpose_csr_cellwise h1 h2 h3 ha hb fa fb fc ra rb rc wc cn cm cs wd dn dm ds]

theorem transpose_inter_csc [Add V] {keep : V → V → Bool} {cell : V → V → Option V}
    (hk : ∀ x y, keep x y = (cell x y).isSome) (h1 : IsPairSort s1) (h2 : IsPairSort s2) (h3 : IsPairSort s3)
    (ha : x.WF) (hb : y.WF) (fa : x.comp.Fits) (fb : y.comp.Fits)
    (hc : binCsc (interRowCount keep) (interRowFill cell) x y = some z) (fc : z.comp.Fits)
    (ra : TransposeCscRun s1 t1 x xt) (rb : TransposeCscRun s2 t2 y yt) (rc : TransposeCscRun s3 t3 z q) :
    binCsc (interRowCount keep) (interRowFill cell) xt yt = some q := by
  obtain ⟨hn, hm⟩ : x.nrows = y.nrows ∧ x.ncols = y.ncols := by
    by_contra h; rw [binCsc_none_iff.2 h] at hc; cases hc
  obtain ⟨c', e1, wc, cn, cm, cs, -⟩ := inter_csc_stored hk ha hb hn hm
  rw [hc] at e1; cases e1
  obtain ⟨wa, a2, a3, -⟩ := transpose_csc_correct ha fa h1 ra
  obtain ⟨wb, b2, b3, -⟩ := transpose_csc_correct hb fb h2 rb
  obtain ⟨d, e2, wd, dn, dm, ds, -⟩ := inter_csc_stored hk wa wb (by rw [a2, b2, hm]) (by rw [a3, b3, hn])
  rw [e2, transpose_csc_cellwise h1 h2 h3 ha hb fa fb fc ra rb rc wc cn cm cs wd dn dm ds]

/-- C46: (A ∘ B)ᵀ = Aᵀ ∘ Bᵀ. -/
theorem transpose_hadamard_csr [Add V] [Mul V] [BEq V] (h1 : IsPairSort s1) (h2 : IsPairSort s2) (h3 : IsPairSort s3)
    (ha : a.WF) (hb : b.WF) (fa : a.comp.Fits) (fb : b.comp.Fits) (hmul : hadamardCsr a b = some c) (fc : c.comp.Fits)
    (ra : TransposeCsrRun s1 t1 a at') (rb : TransposeCsrRun s2 t2 b bt) (rc : TransposeCsrRun s3 t3 c r) :
    hadamardCsr at' bt = some r :=
  transpose_inter_csr (cell := hadamardCell) (fun x y => by unfold hadamardKeep hadamardCell; simp; split <;> simp_all)
    h1 h2 h3 ha hb fa fb hmul fc ra rb rc

theorem transpose_hadamard_csc [Add V] [Mul V] [BEq V] (h1 : IsPairSort s1) (h2 : IsPairSort s2) (h3 : IsPairSort s3)
    (ha : x.WF) (hb : y.WF) (fa : x.comp.Fits) (fb : y.comp.Fits) (hmul : hadamardCsc x y = some z) (fc : z.comp.Fits)
    (ra : TransposeCscRun s1 t1 x xt) (rb : TransposeCscRun s2 t2 y yt) (rc : TransposeCscRun s3 t3 z q) :
    hadamardCsc xt yt = some q :=
  transpose_inter_csc (cell := hadamardCell) (fun x y => by unfold hadamardKeep hadamardCell; simp; split <;> simp_all)
    h1 h2 h3 ha hb fa fb hmul fc ra rb rc

end commute

example : exA.WF ∧ exB.WF ∧ exA.comp.Fits ∧ exB.comp.Fits ∧
    addCsr exA exB = some ⟨2, 3, [0, 2, 3], [1, 2, 1], [4, 6, 7]⟩ ∧
    hadamardCsr exA exB = some ⟨2, 3, [0, 1, 1], [0], [-25]⟩ :=
  ⟨exA_wf, exB_wf, ⟨by decide, by decide⟩, ⟨by decide, by decide⟩, by decide, by decide⟩

end Lacuna
