import Verif.Lemmas.PtrPrune
import Verif.Props.Prune
import Verif.Props.PtrElementwise
/-
C61: `prune_eps` / `prune_eps_csc` at pointer level.  With one pointer per line plus one, the
kernel stays in bounds and returns exactly the list-level result; even with arbitrary pointer
values it can only panic, because the counting pass slices `data` with bounds checks.  The
parallel path has two holes: surplus pointers, and fewer indices than values.
-/
namespace Lacuna
variable {V : Type} [HasLt V] [HasAbs V]

omit [HasLt V] [HasAbs V] in
theorem Comp.PtrOk.winOk {a : Comp V} (h : a.PtrOk) {i : Nat} (hi : i < a.n) : WinOk a a.data.length i := by
  refine ⟨h.nonneg (by omega), h.ptr_mono i hi, ?_⟩
  have := h.mono (i := i + 1) (by omega) (Nat.le_refl _)
  have := h.last_data
  omega

theorem pruneRun_of_ofRows [Zero V] [BEq V] {eps : V} {a : Comp V} (hs : pruneSkips eps a.data = false) :
    PruneRun eps a (Comp.ofRows a.m (pruneOuts eps a)) := by
  have e : twoPass a.m (pruneCounts eps a) (pruneOuts eps a) = Comp.ofRows a.m (pruneOuts eps a) := by
    rw [pruneCounts_eq, twoPass_eq]
  by_cases h : a.data.length < smallNnzPrune
  · exact .inr (.inl ⟨hs, h, e.symm⟩)
  · exact .inr (.inr ⟨hs, by omega, _, _, List.Perm.refl _, List.Perm.refl _, e.symm⟩)

theorem pruneRun_iff [Zero V] [BEq V] {eps : V} {a r : Comp V} (hs : pruneSkips eps a.data = false) :
    PruneRun eps a r ↔ r = Comp.ofRows a.m (pruneOuts eps a) := by
  constructor
  · intro h
    rcases pruneRun_cases h with ⟨h1, _⟩ | ⟨_, h2⟩
    · rw [hs] at h1; cases h1
    · exact h2
  · rintro rfl; exact pruneRun_of_ofRows hs

theorem prunePtr_iff [Zero V] [BEq V] {eps : V} {a : Comp V} (hl : a.indptr.length = a.n + 1) (ho : a.PtrOk)
    (hm : a.Machine) {F : Nat} (hF : a.data.length < F) (dbg : Bool) (out : Except Fault (Comp V)) :
    PrunePtr dbg F eps a out ↔ ∃ r, PruneRun eps a r ∧ out = .ok r := by
  have hd := hm.data
  have hn : 8 * ((a.n + 1 : Nat) : Int) ≤ i64Max := by have := hm.indptr; rw [hl] at this; exact this
  have hW : windowsLen a = a.n := by unfold windowsLen; omega
  have hx : ∀ i, i < a.n → a.ptr (i + 1) ≤ a.indices.length := fun i hi => ho.ptr_le_indices (by omega)
  have hw : ∀ i, i < a.n → WinOk a a.data.length i := fun i hi => ho.winOk hi
  unfold PrunePtr
  by_cases hs : pruneSkips eps a.data = true
  · rw [if_pos hs]
    constructor
    · rintro rfl; exact ⟨a, .inl ⟨hs, rfl⟩, rfl⟩
    · rintro ⟨r, hr, rfl⟩
      rcases pruneRun_cases hr with ⟨_, rfl⟩ | ⟨h1, _⟩
      · rfl
      · rw [hs] at h1; cases h1
  · rw [if_neg hs]
    have hs' : pruneSkips eps a.data = false := by simpa using hs
    have e : (∃ r, PruneRun eps a r ∧ out = .ok r) ↔ out = .ok (Comp.ofRows a.m (pruneOuts eps a)) := by
      constructor
      · rintro ⟨r, hr, rfl⟩; rw [(pruneRun_iff hs').1 hr]
      · rintro rfl; exact ⟨_, pruneRun_of_ofRows hs', rfl⟩
    rw [e]
    split
    · rw [pruneSmallP_eq hd hn hF hW hx hw]
    · exact pruneLargePtr_iff hd hn hF (by omega) (by rw [hW]; exact hx) (by rw [hW]; exact hw) out

/-- `prune_eps`: for valid pointers (whatever the indices), both sizes, every schedule, debug and
release, the kernel is in bounds, free of races, terminates and returns the list-level result. -/
theorem prune_csr_ptr [Zero V] [BEq V] {eps : V} {a : Csr V} (hl : a.indptr.length = a.nrows + 1)
    (ho : a.comp.PtrOk) (hm : a.comp.Machine) {F : Nat} (hF : a.data.length < F) (dbg : Bool)
    (out : Except Fault (Csr V)) :
    PruneCsrPtr dbg F eps a out ↔ ∃ r, PruneCsr a eps r ∧ out = .ok r := by
  have key := prunePtr_iff (eps := eps) (a := a.comp) hl ho hm hF dbg
  constructor
  · rintro ⟨o, h, rfl⟩
    obtain ⟨r, hr, rfl⟩ := (key o).1 h
    exact ⟨r.toCsr, hr, rfl⟩
  · rintro ⟨r, hr, rfl⟩
    exact ⟨.ok r.comp, (key _).2 ⟨r.comp, hr, rfl⟩, rfl⟩

/-- `prune_eps_csc`. -/
theorem prune_csc_ptr [Zero V] [BEq V] {eps : V} {a : Csc V} (hl : a.indptr.length = a.ncols + 1)
    (ho : a.comp.PtrOk) (hm : a.comp.Machine) {F : Nat} (hF : a.data.length < F) (dbg : Bool)
    (out : Except Fault (Csc V)) :
    PruneCscPtr dbg F eps a out ↔ ∃ r, PruneCsc a eps r ∧ out = .ok r := by
  have key := prunePtr_iff (eps := eps) (a := a.comp) hl ho hm hF dbg
  constructor
  · rintro ⟨o, h, rfl⟩
    obtain ⟨r, hr, rfl⟩ := (key o).1 h
    exact ⟨r.toCsc, hr, rfl⟩
  · rintro ⟨r, hr, rfl⟩
    exact ⟨.ok r.comp, (key _).2 ⟨r.comp, hr, rfl⟩, rfl⟩

/-- Every run on a well-formed matrix returns the matrix of the entries above the threshold. -/
theorem prune_csr_ptr_correct [Zero V] [BEq V] {eps : V} {a : Csr V} (hw : a.WF) (hm : a.comp.Machine) {F : Nat}
    (hF : a.data.length < F) (hneg : flt eps 0 = false)
    (hz : (eps == 0) = true → ∀ v ∈ a.data, (v == 0) = false → flt eps (fabs v) = true) {dbg : Bool}
    {out : Except Fault (Csr V)} (h : PruneCsrPtr dbg F eps a out) :
    ∃ r, out = .ok r ∧ r.WF ∧ r.nrows = a.nrows ∧ r.ncols = a.ncols ∧
      ∀ i, r.comp.row i = (a.comp.row i).filter (fun e => flt eps (fabs e.2)) := by
  obtain ⟨r, hr, rfl⟩ := (prune_csr_ptr hw.ptr_length (Comp.WF.ptrOk hw) hm hF dbg out).1 h
  exact ⟨r, rfl, prune_csr_correct hw hr hneg hz⟩

/-- `prune_eps_csc`. -/
theorem prune_csc_ptr_correct [Zero V] [BEq V] {eps : V} {a : Csc V} (hw : a.WF) (hm : a.comp.Machine) {F : Nat}
    (hF : a.data.length < F) (hneg : flt eps 0 = false)
    (hz : (eps == 0) = true → ∀ v ∈ a.data, (v == 0) = false → flt eps (fabs v) = true) {dbg : Bool}
    {out : Except Fault (Csc V)} (h : PruneCscPtr dbg F eps a out) :
    ∃ r, out = .ok r ∧ r.WF ∧ r.nrows = a.nrows ∧ r.ncols = a.ncols ∧
      ∀ i, r.comp.row i = (a.comp.row i).filter (fun e => flt eps (fabs e.2)) := by
  obtain ⟨r, hr, rfl⟩ := (prune_csc_ptr hw.ptr_length (Comp.WF.ptrOk hw) hm hF dbg out).1 h
  exact ⟨r, rfl, prune_csc_correct hw hr hneg hz⟩

/-! ### arbitrary pointers -/

theorem prunePtr_any [Zero V] [BEq V] {eps : V} {a : Comp V} (hl : a.indptr.length ≤ a.n + 1)
    (hx : a.data.length ≤ a.indices.length) (hd : 8 * (a.data.length : Int) ≤ i64Max)
    (hp : ∀ x ∈ a.indptr, -(2 ^ 63) ≤ x ∧ x ≤ i64Max) {F : Nat} (hF : a.data.length < F) {dbg : Bool}
    {out : Except Fault (Comp V)} (h : PrunePtr dbg F eps a out) :
    out = .error .panic ∨ ∃ r, out = .ok r ∧ (a.indptr.length = a.n + 1 → 8 * ((a.n + 1 : Nat) : Int) ≤ i64Max →
      PruneRun eps a r ∧ (pruneSkips eps a.data = false → ∀ i, i < a.n →
        0 ≤ a.indptr.getD i 0 ∧ a.indptr.getD i 0 ≤ a.indptr.getD (i + 1) 0 ∧
        a.indptr.getD (i + 1) 0 ≤ a.data.length)) := by
  unfold PrunePtr at h
  by_cases hs : pruneSkips eps a.data = true
  · rw [if_pos hs] at h
    exact .inr ⟨a, h, fun _ _ => ⟨.inl ⟨hs, rfl⟩, fun h0 => by rw [hs] at h0; cases h0⟩⟩
  · rw [if_neg hs] at h
    have hs' : pruneSkips eps a.data = false := by simpa using hs
    have hW : windowsLen a ≤ a.n := by unfold windowsLen; omega
    split at h
    · rcases pruneSmallP_panicOr (dbg := dbg) (eps := eps) hd hF with h1 | ⟨r, h1⟩
      · exact .inl (h.trans h1)
      · refine .inr ⟨r, h.trans h1, fun hl' hn => ?_⟩
        have hW' : windowsLen a = a.n := by unfold windowsLen; omega
        -- the counting loop has evaluated every window
        have hw : ∀ i, i < a.n → WinOk a a.data.length i := by
          have hok : ∀ (l : List Nat) (p q : List Int), l.foldlM (pruneCountStep dbg F eps a) p = .ok q →
              ∀ i ∈ l, ∃ c, pruneCountP dbg F eps a i = .ok c := by
            intro l
            induction l with
            | nil => intro p q _ i hi; cases hi
            | cons x l ih =>
              intro p q hq i hi
              rw [List.foldlM_cons] at hq
              unfold pruneCountStep at hq
              rcases hc : pruneCountP dbg F eps a x with e | c
              · rw [hc] at hq; cases hq
              · rcases List.mem_cons.1 hi with rfl | hi
                · exact ⟨c, hc⟩
                · rcases hst : pruneCountStep dbg F eps a p x with e | p'
                  · unfold pruneCountStep at hst
                    rw [hst] at hq; cases hq
                  · unfold pruneCountStep at hst
                    rw [hst, ok_bind] at hq
                    exact ih p' q hq i hi
          intro i hi
          unfold pruneSmallP at h1
          rw [addUsize_eq' (by omega), ok_bind, zerosP_ok hn, ok_bind] at h1
          rcases hf : (List.range (windowsLen a)).foldlM (pruneCountStep dbg F eps a) (List.replicate (a.n + 1) 0)
            with e | q
          · rw [hf] at h1; cases h1
          · obtain ⟨c, hc⟩ := hok _ _ _ hf i (by rw [List.mem_range]; omega)
            exact pruneCountP_valid hd hp (by omega) hc
        have hx' : ∀ i, i < a.n → a.ptr (i + 1) ≤ a.indices.length := fun i hi => by
          have := (hw i hi).ptr_le; omega
        rw [pruneSmallP_eq hd hn hF hW' hx' hw] at h1
        cases h1
        exact ⟨pruneRun_of_ofRows hs', fun _ i hi => ⟨(hw i hi).nonneg, (hw i hi).mono, (hw i hi).last⟩⟩
    · rcases pruneLargePtr_any hd hF hp hW hx h with h1 | ⟨hw, h1⟩
      · exact .inl h1
      · refine .inr ⟨_, h1, fun hl' _ => ?_⟩
        have hW' : windowsLen a = a.n := by unfold windowsLen; omega
        rw [hW'] at hw
        exact ⟨pruneRun_of_ofRows hs', fun _ i hi => ⟨(hw i hi).nonneg, (hw i hi).mono, (hw i hi).last⟩⟩

/-- Arbitrary pointer values: with at most one pointer per row plus one and an index for every
value, `prune_eps` never has undefined behaviour.  If it returns and the number of pointers is
right, the pointers were valid (or nothing was to be pruned) and the result is the list-level
one. -/
theorem prune_csr_any_pointers [Zero V] [BEq V] {eps : V} {a : Csr V} (hl : a.indptr.length ≤ a.nrows + 1)
    (hx : a.data.length ≤ a.indices.length) (hd : 8 * (a.data.length : Int) ≤ i64Max)
    (hp : ∀ x ∈ a.indptr, -(2 ^ 63) ≤ x ∧ x ≤ i64Max) {F : Nat} (hF : a.data.length < F) {dbg : Bool}
    {out : Except Fault (Csr V)} (h : PruneCsrPtr dbg F eps a out) :
    out = .error .panic ∨ ∃ r, out = .ok r ∧
      (a.indptr.length = a.nrows + 1 → 8 * ((a.nrows + 1 : Nat) : Int) ≤ i64Max →
        PruneCsr a eps r ∧ (pruneSkips eps a.data = false → ∀ i, i < a.nrows →
          0 ≤ a.indptr.getD i 0 ∧ a.indptr.getD i 0 ≤ a.indptr.getD (i + 1) 0 ∧
          a.indptr.getD (i + 1) 0 ≤ a.data.length)) := by
  obtain ⟨o, ho, rfl⟩ := h
  rcases prunePtr_any (a := a.comp) hl hx hd hp hF ho with rfl | ⟨r, rfl, hr⟩
  · exact .inl rfl
  · exact .inr ⟨r.toCsr, rfl, hr⟩

/-- `prune_eps_csc`. -/
theorem prune_csc_any_pointers [Zero V] [BEq V] {eps : V} {a : Csc V} (hl : a.indptr.length ≤ a.ncols + 1)
    (hx : a.data.length ≤ a.indices.length) (hd : 8 * (a.data.length : Int) ≤ i64Max)
    (hp : ∀ x ∈ a.indptr, -(2 ^ 63) ≤ x ∧ x ≤ i64Max) {F : Nat} (hF : a.data.length < F) {dbg : Bool}
    {out : Except Fault (Csc V)} (h : PruneCscPtr dbg F eps a out) :
    out = .error .panic ∨ ∃ r, out = .ok r ∧
      (a.indptr.length = a.ncols + 1 → 8 * ((a.ncols + 1 : Nat) : Int) ≤ i64Max →
        PruneCsc a eps r ∧ (pruneSkips eps a.data = false → ∀ i, i < a.ncols →
          0 ≤ a.indptr.getD i 0 ∧ a.indptr.getD i 0 ≤ a.indptr.getD (i + 1) 0 ∧
          a.indptr.getD (i + 1) 0 ≤ a.data.length)) := by
  obtain ⟨o, ho, rfl⟩ := h
  rcases prunePtr_any (a := a.comp) hl hx hd hp hF ho with rfl | ⟨r, rfl, hr⟩
  · exact .inl rfl
  · exact .inr ⟨r.toCsc, rfl, hr⟩

/-! ### surplus pointers -/

/-- Pointers that are valid for `w` lines, on a matrix with fewer lines: the sequential path
panics; the parallel path writes or reads outside its buffers, unless there is exactly one
surplus line and it has nothing to keep. -/
theorem prunePtr_surplus [Zero V] [BEq V] {eps : V} {a : Comp V} {w : Nat} (hl : a.indptr.length = w + 1)
    (hw : a.n < w) (ho : ({ a with n := w } : Comp V).PtrOk) (hm : a.Machine) {F : Nat} (hF : a.data.length < F)
    (hs : pruneSkips eps a.data = false) (dbg : Bool) (out : Except Fault (Comp V)) :
    PrunePtr dbg F eps a out ↔
      out = if a.data.length < 16384 then .error .panic
        else if w = a.n + 1 ∧ ∀ e ∈ a.row a.n, flt eps (fabs e.2) = false
          then .ok (Comp.ofRows a.m ((List.range a.n).map fun i => (a.row i).filter fun e => flt eps (fabs e.2)))
          else .error .ub := by
  have hd := hm.data
  have hi := hm.indptr
  have hn : 8 * ((a.n + 1 : Nat) : Int) ≤ i64Max := by omega
  have hW : windowsLen a = w := by unfold windowsLen; omega
  have hx : ∀ i, i < w → a.ptr (i + 1) ≤ a.indices.length :=
    fun i hi => ho.ptr_le_indices (i := i + 1) (show i + 1 ≤ w by omega)
  have hwin : ∀ i, i < w → WinOk a a.data.length i := fun i hi => by
    have := ho.winOk (i := i) hi
    exact ⟨this.nonneg, this.mono, this.last⟩
  unfold PrunePtr smallNnzPrune
  rw [hs]
  simp only [Bool.false_eq_true, if_false]
  split
  · rw [pruneSmallP_long hd hn hF (by omega) fun i hi => hwin i (by omega)]
  · rw [pruneLargePtr_long hd hn hF (by omega) (by rw [hW]; exact hx) (by rw [hW]; exact hwin)]
    have e : (copySig eps (a.row a.n)).length = 0 ↔ ∀ e ∈ a.row a.n, flt eps (fabs e.2) = false := by
      unfold copySig significant
      rw [List.length_eq_zero_iff, List.filter_eq_nil_iff]
      simp
    rw [hW]
    simp only [e]
    rfl

/-- Two or more surplus pointers make the parallel path of `prune_eps` undefined behaviour. -/
theorem prune_csr_surplus_ub [Zero V] [BEq V] {eps : V} {a : Csr V} {w : Nat} (hl : a.indptr.length = w + 1)
    (hw : a.nrows + 1 < w) (ho : ({ a.comp with n := w } : Comp V).PtrOk) (hm : a.comp.Machine) {F : Nat}
    (hF : a.data.length < F) (hs : pruneSkips eps a.data = false) (hbig : 16384 ≤ a.data.length) (dbg : Bool)
    (out : Except Fault (Csr V)) : PruneCsrPtr dbg F eps a out ↔ out = .error .ub := by
  have key := prunePtr_surplus (eps := eps) (a := a.comp) hl (by show a.nrows < w; omega) ho hm hF hs dbg
  rw [if_neg (show ¬ a.comp.data.length < 16384 by show ¬ a.data.length < 16384; omega),
    if_neg fun h => by have h1 : w = a.nrows + 1 := h.1; omega] at key
  constructor
  · rintro ⟨o, h, rfl⟩
    rw [(key o).1 h]; rfl
  · rintro rfl
    exact ⟨_, (key _).2 rfl, rfl⟩

/-! ### fewer indices than values -/

/-- A value above the threshold without an index: the parallel path reads outside `indices`. -/
theorem prunePtr_short_ub [Zero V] [BEq V] {eps : V} {a : Comp V} (hl : a.indptr.length = a.n + 1)
    (h0 : 0 ≤ a.indptr.getD 0 0) (hmo : ∀ i, i < a.n → a.indptr.getD i 0 ≤ a.indptr.getD (i + 1) 0)
    (hla : a.indptr.getD a.n 0 ≤ a.data.length) (hm : a.Machine) {F : Nat} (hF : a.data.length < F)
    (hs : pruneSkips eps a.data = false) (hbig : 16384 ≤ a.data.length)
    {i t : Nat} (hi : i < a.n) (ht : t < a.data.length) (h1 : a.indptr.getD i 0 ≤ t)
    (h2 : (t : Int) < a.indptr.getD (i + 1) 0) (hsg : flt eps (fabs a.data[t]) = true)
    (hx : a.indices.length ≤ t) (dbg : Bool) (out : Except Fault (Comp V)) :
    PrunePtr dbg F eps a out ↔ out = .error .ub := by
  have hd := hm.data
  have hi' := hm.indptr
  have hn : 8 * ((a.n + 1 : Nat) : Int) ≤ i64Max := by rw [hl] at hi'; exact hi'
  have hW : windowsLen a = a.n := by unfold windowsLen; omega
  have hwin : ∀ i, i < a.n → WinOk a a.data.length i := fun i hi => by
    have g1 := mono_of_step hmo (show 0 ≤ i by omega) (show i ≤ a.n by omega)
    have g2 := mono_of_step hmo (show i + 1 ≤ a.n by omega) (Nat.le_refl _)
    exact ⟨by omega, hmo i hi, by omega⟩
  unfold PrunePtr smallNnzPrune
  rw [hs]
  simp only [Bool.false_eq_true, if_false]
  rw [if_neg (by omega)]
  have := (hwin i hi).nonneg
  exact pruneLargePtr_short (i := i) hd hn hF (by omega) (by rw [hW]; exact hwin) (by omega) ht
    (by unfold Comp.ptr; omega) (by unfold Comp.ptr; omega) hsg hx out

/-! ### witnesses -/

section witness

attribute [local instance] intLt intAbs

/-- Unsorted, repeated and out-of-range indices are all allowed. -/
def exAnyIdx : Csr Int := ⟨2, 3, [0, 2, 4], [9, -4, 1, 1], [0, -3, 5, 0]⟩
example (dbg : Bool) (out : Except Fault (Csr Int)) :
    PruneCsrPtr dbg 5 1 exAnyIdx out ↔ ∃ r, PruneCsr exAnyIdx 1 r ∧ out = .ok r :=
  prune_csr_ptr rfl ⟨by decide, by decide, by decide, by decide, by decide⟩
    ⟨by decide, by decide, by decide, by decide⟩ (by decide) dbg out

/-- A large matrix: the parallel path. -/
def exMany (nrows : Nat) (indptr : List Int) (ni : Nat) : Csr Int :=
  ⟨nrows, 5, indptr, List.replicate ni 4, List.replicate 16384 7⟩

theorem exMany_machine {nrows ni : Nat} {indptr : List Int} (h : 8 * (indptr.length : Int) ≤ i64Max)
    (hi : ni ≤ 16384) : (exMany nrows indptr ni).comp.Machine := by
  refine ⟨h, ?_, ?_, ?_⟩
  · simp only [exMany, Csr.comp, List.length_replicate, i64Max]; omega
  · simp only [exMany, Csr.comp, List.length_replicate, i64Max]; omega
  · intro j hj
    simp only [exMany, Csr.comp] at hj
    rw [List.eq_of_mem_replicate hj]; decide

theorem exMany_skips {nrows ni : Nat} {indptr : List Int} :
    pruneSkips (1 : Int) (exMany nrows indptr ni).data = false := by
  unfold pruneSkips; rfl

/-- The parallel path on valid arrays. -/
example (dbg : Bool) (out : Except Fault (Csr Int)) :
    PruneCsrPtr dbg 16385 1 (exMany 2 [0, 16000, 16384] 16384) out ↔
      ∃ r, PruneCsr (exMany 2 [0, 16000, 16384] 16384) 1 r ∧ out = .ok r := by
  refine prune_csr_ptr rfl ⟨by decide, by decide, ?_, ?_, ?_⟩ (exMany_machine (by decide) (by decide)) ?_ dbg out
  · simp only [exMany, Csr.comp]; decide
  · simp only [exMany, Csr.comp, List.length_replicate]; decide
  · simp only [exMany, Csr.comp, List.length_replicate]; decide
  · simp only [exMany, List.length_replicate]; decide

/-- Two surplus pointers. -/
example (dbg : Bool) (out : Except Fault (Csr Int)) :
    PruneCsrPtr dbg 16385 1 (exMany 1 [0, 16384, 16384, 16384] 16384) out ↔ out = .error .ub := by
  refine prune_csr_surplus_ub (w := 3) rfl (by decide) ⟨by decide, by decide, ?_, ?_, ?_⟩
    (exMany_machine (by decide) (by decide)) ?_ exMany_skips ?_ dbg out
  · simp only [exMany, Csr.comp]; decide
  · simp only [exMany, Csr.comp, List.length_replicate]; decide
  · simp only [exMany, Csr.comp, List.length_replicate]; decide
  · simp only [exMany, List.length_replicate]; decide
  · simp only [exMany, List.length_replicate]; decide

/-- One index is missing. -/
example (dbg : Bool) (out : Except Fault (Comp Int)) :
    PrunePtr dbg 16385 1 (exMany 1 [0, 16384] 16383).comp out ↔ out = .error .ub := by
  refine prunePtr_short_ub (i := 0) (t := 16383) rfl (by decide) ?_ ?_ (exMany_machine (by decide) (by decide)) ?_
    (exMany_skips (nrows := 1) (indptr := [0, 16384]) (ni := 16383)) ?_ (by decide) ?_ (by decide) (by decide) ?_ ?_ dbg out
  · simp only [exMany, Csr.comp]; decide
  · simp only [exMany, Csr.comp, List.length_replicate]; decide
  · simp only [exMany, Csr.comp, List.length_replicate]; decide
  · simp only [exMany, Csr.comp, List.length_replicate]; decide
  · simp only [exMany, Csr.comp, List.length_replicate]; decide
  · simp only [exMany, Csr.comp, List.getElem_replicate]; decide
  · simp only [exMany, Csr.comp, List.length_replicate]; decide

/-- Negative and decreasing pointers. -/
example (dbg : Bool) (out : Except Fault (Csr Int)) (h : PruneCsrPtr dbg 3 1 ⟨2, 3, [2, -1, 9], [0, 1], [5, 6]⟩ out) :
    out = .error .panic := by
  rcases prune_csr_any_pointers (a := ⟨2, 3, [2, -1, 9], [0, 1], [5, 6]⟩) (by decide) (by decide) (by decide) (by decide)
    (by decide) h with h | ⟨r, -, hr⟩
  · exact h
  · have := ((hr rfl (by decide)).2 (by decide) 0 (by decide)).2.1
    exact absurd this (by decide)

end witness
end Lacuna
