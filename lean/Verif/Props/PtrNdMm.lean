import Verif.Props.PtrNdAcc
import Verif.Props.Tensordot
/-
C68: `spmm_coond_f64_i64` and the N-D `tensordot` at pointer level.  The dense factor is read
through raw pointers without a check of the stored coordinate along the contracted axis.
-/
namespace Lacuna
variable {V : Type}

/-! ### Loops as folds -/

/-- A counting loop whose body handles `B` items at once is a fold over the items. -/
theorem untilP_foldB {σ : Type} {body : Nat × σ → Except Fault (Nat × σ)} {f : σ → Nat → Except Fault σ} {B lim : Nat}
    (hB : 0 < B)
    (h : ∀ q s, q + B ≤ lim → body (q, s) = ((List.range' q B).foldlM f s).map fun s => (q + B, s)) :
    ∀ (k F q : Nat) (s : σ), lim = q + k * B → k < F →
      untilP F lim body (q, s) = ((List.range' q (k * B)).foldlM f s).map fun s => (lim, s) := by
  intro k
  induction k with
  | zero =>
    intro F q s hq hF
    rw [untilP_done (by omega) (by simp only; omega)]
    have : q = lim := by omega
    subst this
    simp
    rfl
  | succ k ih =>
    intro F q s hq hF
    obtain ⟨F, rfl⟩ : ∃ F', F = F' + 1 := ⟨F - 1, by omega⟩
    have hlt : q + B ≤ lim := by rw [hq, Nat.add_mul, Nat.one_mul]; omega
    have hr : List.range' q ((k + 1) * B) = List.range' q B ++ List.range' (q + B) (k * B) := by
      rw [Nat.add_mul, Nat.one_mul, Nat.add_comm (k * B) B, ← List.range'_append_1]
    rw [hr, List.foldlM_append]
    have hb := h q s hlt
    cases hf : (List.range' q B).foldlM f s with
    | error e =>
      rw [hf, err_map] at hb
      rw [untilP_first_err (by omega) (by simp only; omega) hb]
      rfl
    | ok s' =>
      rw [hf, ok_map] at hb
      rw [ok_bind, ← ih F (q + B) s' (by rw [hq, Nat.add_mul, Nat.one_mul]; omega) (by omega)]
      unfold untilP
      rw [whileM_true (by rw [decide_eq_true (by simp only; omega)]; rfl) hb]

/-- Two counting loops, by four and by one, over the same items. -/
theorem loops4_fold {σ : Type} {F len : Nat} {b4 b1 : Nat × σ → Except Fault (Nat × σ)} {f : σ → Nat → Except Fault σ}
    (hlen : len ≤ usizeMax) (hF : len < F)
    (h4 : ∀ q s, q + 4 ≤ len → b4 (q, s) = ((List.range' q 4).foldlM f s).map fun s => (q + 4, s))
    (h1 : ∀ q s, q + 1 ≤ len → b1 (q, s) = (f s q).map fun s => (q + 1, s)) (s : σ) :
    (do
      let s ← untilP F (andNot len 3) b4 (0, s)
      let s ← untilP F len b1 s
      pure s.2) = (List.range len).foldlM f s := by
  rw [mask4 hlen, untilP_foldB (B := 4) (f := f) (by decide) (fun q s hq => h4 q s (by omega)) (len / 4) F 0 s (by omega)
    (by omega)]
  have hr : List.range len = List.range' 0 (len / 4 * 4) ++ List.range' (len - len % 4) (len % 4 * 1) := by
    rw [List.range_eq_range', show len = len / 4 * 4 + len % 4 * 1 by omega, ← List.range'_append_1]
    congr 2 <;> omega
  rw [hr, List.foldlM_append]
  cases (List.range' 0 (len / 4 * 4)).foldlM f s with
  | error e => rfl
  | ok s' =>
    rw [ok_map, ok_bind, ok_bind, untilP_foldB (B := 1) (f := f) (by decide) (fun q s hq => by
      rw [h1 q s hq, show List.range' q 1 = [q] from rfl, List.foldlM_cons]
      cases f s q <;> rfl) (len % 4) F _ s' (by omega) (by omega)]
    cases (List.range' (len - len % 4) (len % 4 * 1)).foldlM f s' <;> rfl

section
variable [Zero V] [Add V] [Mul V] [BEq V] {dbg : Bool} {F : Nat}

omit [Zero V] [Add V] [BEq V] in
theorem mmReadP_eq [Zero V] {b : List V} {av : V} {p : Nat} (h : p < b.length) :
    mmReadP b av p = .ok (av * b.getD p 0) := by
  unfold mmReadP
  rw [asPtr_get h, ok_bind, List.getD_eq_getElem _ _ h]
  rfl

/-- The two column loops of one entry. -/
def mmColsP (dbg : Bool) (F : Nat) (b : List V) (av : V) (k rowBase lin strideK : Nat) (m : HMap V) :
    Except Fault (HMap V) := do
  let s ← untilP F (andNot k 3) (mmBody4P dbg F b av rowBase lin strideK) (0, m)
  let s ← untilP F k (mmBody1P dbg F b av rowBase lin strideK) s
  pure s.2

/-- If the row of the dense factor lies inside it, the two loops insert the products one after
the other. -/
theorem mmColsP_eq {b : List V} {av : V} {k rowBase lin strideK : Nat} (hb : rowBase + k ≤ b.length)
    (hbu : b.length ≤ usizeMax) (hF : k < F) (m : HMap V) :
    mmColsP dbg F b av k rowBase lin strideK m =
      (List.range k).foldlM (fun m c => mmInsertP dbg F lin strideK m c (av * b.getD (rowBase + c) 0)) m := by
  unfold mmColsP
  refine loops4_fold (by omega) hF (fun q s hq => ?_) (fun q s hq => ?_) m
  · unfold mmBody4P
    simp only
    rw [addUsize_eq (by omega), ok_bind, mmReadP_eq (by omega), ok_bind, addUsize_eq (by omega), ok_bind,
      mmReadP_eq (by omega), ok_bind, addUsize_eq (by omega), ok_bind, mmReadP_eq (by omega), ok_bind,
      addUsize_eq (by omega), ok_bind, mmReadP_eq (by omega), ok_bind]
    rw [show List.range' q 4 = [q, q + 1, q + 2, q + 3] from rfl]
    simp only [List.foldlM_cons, List.foldlM_nil, ← Nat.add_assoc]
    cases mmInsertP dbg F lin strideK s q (av * b.getD (rowBase + q) 0) with
    | error e => rfl
    | ok s =>
      simp only [ok_bind]
      cases mmInsertP dbg F lin strideK s (q + 1) (av * b.getD (rowBase + q + 1) 0) with
      | error e => rfl
      | ok s =>
        simp only [ok_bind]
        cases mmInsertP dbg F lin strideK s (q + 2) (av * b.getD (rowBase + q + 2) 0) with
        | error e => rfl
        | ok s =>
          simp only [ok_bind]
          cases mmInsertP dbg F lin strideK s (q + 3) (av * b.getD (rowBase + q + 3) 0) <;> rfl
  · unfold mmBody1P
    simp only
    rw [addUsize_eq (by omega), ok_bind, mmReadP_eq (by omega), ok_bind]
    cases mmInsertP dbg F lin strideK s q (av * b.getD (rowBase + q) 0) <;> rfl

omit [Mul V] in
theorem mmInsertP_safe {lin strideK : Nat} {m : HMap V} (hm : m.Shape) (c : Nat) (v : V) :
    SafeE (fun m : HMap V => m.Shape) (mmInsertP dbg F lin strideK m c v) := by
  unfold mmInsertP
  split
  · exact SafeE.ok hm
  · exact (SafeE.noUb (NoUb.expectP _)).bind fun q _ => (SafeE.noUb (NoUb.expectP _)).bind fun key _ =>
      (HMap.insertAddP_safe hm key v).mono fun m' h' => h'.1

/-- One entry whose coordinate along the axis is in range. -/
theorem spmmNdEntryP_safe {a : CooNd V} {axis k n : Nat} {b : List V} {st axes : List Nat} {strideK p : Nat}
    (hb : b.length = n * k) (hbu : b.length ≤ usizeMax) (hF : k < F)
    (hp : p * a.shape.length + axis ≤ usizeMax)
    (hax : ∀ x, a.indices[p * a.shape.length + axis]? = some x → 0 ≤ x ∧ x < n) {m : HMap V} (hm : m.Shape) :
    SafeE (fun m : HMap V => m.Shape) (spmmNdEntryP dbg F a axis b k st axes strideK m p) := by
  unfold spmmNdEntryP
  rw [mulUsize_eq (by omega), ok_bind, addUsize_eq hp, ok_bind]
  cases hx : a.indices[p * a.shape.length + axis]? with
  | none =>
    rw [show index a.indices (p * a.shape.length + axis) = .error .panic by unfold index; rw [hx]]
    exact SafeE.panic
  | some x =>
    obtain ⟨h0, hn⟩ := hax x hx
    rw [show index a.indices (p * a.shape.length + axis) = .ok x by unfold index; rw [hx], ok_bind,
      i64ToUsizeP_of (fun _ => h0)]
    rw [ok_bind]
    refine (SafeE.noUb (NoUb.linIdxP _ _ _ _ _)).bind fun lin _ => (SafeE.noUb (NoUb.index _ _)).bind fun av _ => ?_
    have hn' : i64ToUsize x < n ∨ k = 0 := by
      by_cases hk : k = 0
      · exact .inr hk
      left
      have h1 : n ≤ usizeMax := by
        have : n * 1 ≤ n * k := Nat.mul_le_mul_left _ (by omega)
        omega
      unfold i64ToUsize usizeMax at *
      omega
    have hrow : i64ToUsize x * k + k ≤ b.length := by
      rcases hn' with hn' | hk
      · rw [hb, ← Nat.succ_mul]; exact Nat.mul_le_mul_right _ hn'
      · subst hk; simp
    rw [mulUsize_eq (by omega), ok_bind]
    show SafeE _ (mmColsP dbg F b av k (i64ToUsize x * k) lin strideK m)
    rw [mmColsP_eq hrow hbu hF]
    exact SafeE.foldlM (I := fun m : HMap V => m.Shape) _ (fun c _ m hm => mmInsertP_safe hm c _) m hm
end

/-- C68: any array, any dense factor, either build: if the length product does not wrap and the
stored coordinates along the contracted axis are in range, the product is free of undefined
behaviour. -/
theorem spmm_nd_no_ub [Zero V] [Add V] [Mul V] [BEq V] (dbg : Bool) {F : Nat} (sort : List (Nat × V) → List (Nat × V))
    (a : CooNd V) (axis : Nat) (b : List V) {k : Nat} (hF : k < F) (hw : a.shape.getD axis 0 * k ≤ usizeMax)
    (hlen : a.data.length * a.shape.length ≤ usizeMax)
    (hax : ∀ p < a.data.length, ∀ x, a.indices[p * a.shape.length + axis]? = some x →
      0 ≤ x ∧ x < a.shape.getD axis 0) :
    spmmNdP dbg F sort a axis b k ≠ .error .ub := by
  unfold spmmNdP
  by_cases hd : axis < a.shape.length
  swap
  · rw [decide_eq_false hd]
    intro h; cases h
  rw [decide_eq_true hd, index_eq hd]
  rw [List.getD_eq_getElem _ _ hd] at hw hax
  simp only [assertP, if_true, ok_bind]
  rw [mulUsize_eq hw, ok_bind]
  by_cases hb : b.length = a.shape[axis] * k
  swap
  · rw [if_neg (by simpa using hb)]
    intro h; cases h
  rw [if_pos (by simpa using hb), ok_bind]
  refine (NoUb.mapM _ fun _ _ => NoUb.index _ _).bnd fun rest => ?_
  split
  · exact NoUb.ok _
  refine (NoUb.expectP _).bnd fun st => (NoUb.index _ _).bnd fun strideK => (NoUb.mulUsize _ _ _).bnd fun cap => ?_
  refine ((withCapacityP_safe dbg cap).bind (Q := fun _ => True) fun m hm =>
    (SafeE.foldlM (I := fun m : HMap V => m.Shape) _ (fun p hp m hm => spmmNdEntryP_safe hb (by omega) hF (by
      have h1 : (p + 1) * a.shape.length ≤ a.data.length * a.shape.length :=
        Nat.mul_le_mul_right _ (List.mem_range.1 hp)
      rw [Nat.add_mul, Nat.one_mul] at h1
      omega) (hax p (List.mem_range.1 hp)) hm) m hm).bind fun m1 hm1 => SafeE.noUb ?_).1
  exact (NoUb.pairsP _).bnd fun _ => (NoUb.withCapP _ _).bnd fun _ => NoUb.ndBuildP _ _ _ _

/-! ### Valid arrays -/

section
variable [Zero V] [Add V] [Mul V] [BEq V] {dbg : Bool} {F : Nat}

omit [Mul V] [BEq V] in
theorem insertAllP_flatten (L : List (List (Nat × V))) (m : HMap V) :
    L.foldlM (fun m l => m.insertAllP dbg F l) m = m.insertAllP dbg F L.flatten := by
  unfold HMap.insertAllP
  rw [← List.flatMap_id, foldlM_flatMap]
  rfl

/-- The columns of one entry perform the list-level insertions. -/
theorem mmColsP_ops {b : List V} {av : V} {k ax lin strideK : Nat} (hb : ax * k + k ≤ b.length)
    (hbu : b.length ≤ usizeMax) (hF : k < F) {ops : List (Nat × V)} (ho : ndMmRow b k strideK av ax lin = some ops)
    (m : HMap V) : mmColsP dbg F b av k (ax * k) lin strideK m = m.insertAllP dbg F ops := by
  rw [mmColsP_eq hb hbu hF]
  unfold ndMmRow at ho
  obtain ⟨L, hL, rfl⟩ := Option.map_eq_some_iff.1 ho
  obtain ⟨h1, h2⟩ := mapM_some_get hL
  rw [List.length_range] at h1
  subst h1
  rw [← insertAllP_flatten, List.range_eq_range']
  refine foldlM_range' L 0 _ _ m fun c hc m => ?_
  have h3 := h2 c (by rw [List.length_range]; omega)
  rw [List.getElem_range, List.getElem?_eq_getElem (by omega), List.getElem?_eq_getElem hc, Option.bind_some] at h3
  rw [Nat.zero_add, List.getD_eq_getElem _ _ (by omega)]
  unfold mmInsertP
  split
  · rename_i hz
    rw [if_pos hz] at h3
    rw [← Option.some.inj h3]
    rfl
  · rename_i hz
    rw [if_neg hz] at h3
    obtain ⟨q, hq, h3⟩ := Option.bind_eq_some_iff.1 h3
    obtain ⟨key, hkey, h3⟩ := Option.map_eq_some_iff.1 h3
    rw [hq, ← h3]
    simp only [expectP, ok_bind, hkey]
    unfold HMap.insertAllP
    rw [List.foldlM_cons]
    cases HMap.insertAddP dbg F m key (av * b[ax * L.length + c]) <;> rfl

/-- The whole loop. -/
theorem spmmLoop_eq {a : CooNd V} (h : a.WF) (hi : a.I64) (hm : 8 * (a.indices.length : Int) ≤ i64Max)
    {st axes : List Nat} (hl : axes.length ≤ st.length) (hax : ∀ d ∈ axes, d < a.shape.length) {axis : Nat}
    (haxis : axis < a.shape.length) {b : List V} {k strideK : Nat} (hb : b.length = a.shape.getD axis 0 * k)
    (hbu : b.length ≤ usizeMax) (hF : k < F) {ops : List (Nat × V)}
    (ho : ndMmOps a (axes.zip st) axis b k strideK = some ops) (m : HMap V) :
    (List.range a.data.length).foldlM (spmmNdEntryP dbg F a axis b k st axes strideK) m = m.insertAllP dbg F ops := by
  unfold ndMmOps at ho
  obtain ⟨L, hL, rfl⟩ := Option.map_eq_some_iff.1 ho
  obtain ⟨h1, h2⟩ := mapM_some_get hL
  rw [List.length_zipIdx] at h1
  rw [← insertAllP_flatten, List.range_eq_range', ← h1]
  refine foldlM_range' L 0 _ _ m fun p hp m => ?_
  rw [Nat.zero_add]
  have hp' : p < a.data.length := by omega
  have h3 := h2 p (by simpa using hp')
  simp only [List.getElem_zipIdx, Nat.zero_add] at h3
  rw [h.getElem? hp' haxis, Option.bind_some, List.getElem?_eq_getElem hp] at h3
  obtain ⟨lin, hlin, h3⟩ := Option.bind_eq_some_iff.1 h3
  have hbd := h.bounds p hp' axis haxis
  have hpos : 0 < a.shape.length := List.length_pos_iff.2 h.rank
  have hix : index a.indices (p * a.shape.length + axis) = .ok (a.coord p axis) := by
    unfold index; rw [h.getElem? hp' haxis]
  have hlt : i64ToUsize (a.coord p axis) < a.shape.getD axis 0 := by
    rw [i64ToUsize_of_nonneg hbd.1 (hi.coord p axis), List.getD_eq_getElem _ _ haxis]; omega
  have hrow : i64ToUsize (a.coord p axis) * k + k ≤ b.length := by
    rw [hb, ← Nat.succ_mul]; exact Nat.mul_le_mul_right _ hlt
  unfold spmmNdEntryP
  rw [mulUsize_eq (pos_le h hm hp' hpos).2, ok_bind, addUsize_eq (pos_le h hm hp' haxis).1, ok_bind, hix, ok_bind,
    i64ToUsizeP_of (fun _ => hbd.1), ok_bind,
    linIdxP_of hl (fun d hd => (pos_le h hm hp' (hax d hd)).1) h.nonneg hlin, ok_bind, index_eq hp', ok_bind,
    mulUsize_eq (by omega), ok_bind]
  exact mmColsP_ops hrow hbu hF h3 m
end

theorem ndMmEntries_length [Zero V] [Mul V] [BEq V] (a : CooNd V) (axis : Nat) (b : List V) (k : Nat) :
    (ndMmEntries a axis b k).length ≤ a.data.length * k := by
  unfold ndMmEntries
  refine Nat.le_trans (List.length_filter_le _ _) ?_
  rw [List.length_flatMap]
  simp [CooNd.entries_length]

/-- C68: on a valid array and a dense factor of the right size the product returns, in either
build, the list-level result. -/
theorem spmm_nd_ptr [Zero V] [Add V] [Mul V] [BEq V] {dbg : Bool} {F : Nat} {sort : List (Nat × V) → List (Nat × V)}
    (hsort : IsSort sort) {a : CooNd V} (ha : a.WF) (hai : a.I64) {axis : Nat} (hax : axis < a.shape.length)
    {b : List V} {k : Nat} (hk : 0 < k) (hb : b.length = a.shape.getD axis 0 * k)
    (hm : a.shape.getD axis 0 * k ≤ usizeMax) (hki : (k : Int) ≤ i64Max + 1)
    (hno : NoOverflow ((restAxes a.shape.length [axis]).map (fun d => a.shape.getD d 0) ++ [k]))
    (hmap : 24 * ((a.data.length * k : Nat) : Int) ≤ i64Max) (hidx : 8 * ((a.indices.length * k : Nat) : Int) ≤ i64Max)
    (hF : 3 * (a.data.length * k) + 16 ≤ F) :
    ∃ r, spmmNdP dbg F sort a axis b k = .ok r ∧ spmmNd sort a axis b k = some r := by
  have hrlt : ∀ d ∈ restAxes a.shape.length [axis], d < a.shape.length := by
    intro d hd
    have := (List.mem_filter.1 hd).1
    simpa using this
  have hrem : (List.range a.shape.length).filter (fun d => decide (d ≠ axis)) = restAxes a.shape.length [axis] := by
    unfold restAxes
    apply List.filter_congr
    intro d _
    by_cases h : d = axis <;> simp [h]
  have hrlen : (restAxes a.shape.length [axis]).length + 1 ≤ a.shape.length := by
    have h1 : (restAxes a.shape.length [axis]).length < (List.range a.shape.length).length := by
      unfold restAxes
      refine List.length_filter_lt_length_iff_exists.2 ⟨axis, List.mem_range.2 hax, by simp⟩
    rw [List.length_range] at h1
    exact h1
  let shape := (restAxes a.shape.length [axis]).map (fun d => a.shape.getD d 0) ++ [k]
  have hshl : shape.length ≤ a.shape.length := by simpa [shape] using hrlen
  let E := ndMmEntries a axis b k
  have hEmem : ∀ e ∈ E, ∃ e' ∈ a.entries, ∃ c, c < k ∧
      e.1 = select (restAxes a.shape.length [axis]) e'.1 ++ [(c : Int)] := by
    intro e he
    obtain ⟨e', he', h⟩ := List.mem_flatMap.1 (List.mem_filter.1 he).1
    obtain ⟨c, hc, rfl⟩ := List.mem_map.1 h
    exact ⟨e', he', c, List.mem_range.1 hc, rfl⟩
  have hEb : ∀ e ∈ E, InBounds shape e.1 := by
    intro e he
    obtain ⟨e', he', c, hc, h⟩ := hEmem e he
    rw [h]
    exact inBounds_snoc (select_inBounds ha hrlt e' he') hc
  have hEi : ∀ e ∈ E, ∀ i ∈ e.1, i ≤ i64Max := by
    intro e he i hi
    obtain ⟨e', he', c, hc, h⟩ := hEmem e he
    rw [h] at hi
    rcases List.mem_append.1 hi with hi | hi
    · exact select_i64 hai _ e' he' i hi
    · have : i = (c : Int) := by simpa using hi
      omega
  have hEl : E.length ≤ a.data.length * k := ndMmEntries_length a axis b k
  have hcap : a.data.length * min k 8 ≤ a.data.length * k := Nat.mul_le_mul_left _ (Nat.min_le_left _ _)
  have hU : a.data.length * k ≤ usizeMax := by unfold i64Max at hmap; unfold usizeMax; omega
  obtain ⟨m, L, c1, c2, c3, c4, c5, c6, c7, c8⟩ := collectNdP (dbg := dbg) (F := F) (cap := a.data.length * min k 8)
    (N := a.data.length * k) hsort hno hEb hEi hEl hcap hF hmap
  have hshape : shape ≠ [] := by simp [shape]
  have hops := ndMmOps_eq ha hai hax hk hb hno
  have hw : wrapMul a.data.length (min k 8) = a.data.length * min k 8 := wrapMul_eq (by omega)
  have hbl : (b.length == a.shape[axis] * k) = true := by
    rw [hb, List.getD_eq_getElem _ _ hax, beq_self_eq_true]
  have hm' : a.shape[axis] * k ≤ usizeMax := by rwa [List.getD_eq_getElem _ _ hax] at hm
  have hp : ((fun e : Nat × V => !(e.2 == 0)) ∘ fun e : List Int × V => (rowMajor shape e.1, e.2))
      = fun e : List Int × V => !(e.2 == 0) := rfl
  let L' := L.filter fun e => !(e.2 == 0)
  have hL' : L'.length ≤ L.length := List.length_filter_le _ _
  have hsub : ∀ e ∈ L', e ∈ L := fun e he => (List.mem_filter.1 he).1
  by_cases h0 : a.data.length = 0
  · refine ⟨⟨shape, [], []⟩, ?_, ?_⟩
    · unfold spmmNdP
      rw [decide_eq_true hax]
      simp only [assertP, if_true, ok_bind, hrem]
      rw [index_eq hax, ok_bind, mulUsize_eq hm', ok_bind, if_pos hbl, ok_bind, mapM_index (d0 := 0) _ hrlt, ok_bind,
        if_pos (.inl h0)]
      rfl
    · unfold spmmNd
      simp only
      rw [if_neg (by simpa using hax), wrapMul_eq hm, if_neg (by simpa using hb), hrem, if_pos (.inl h0)]
  · have hkF : k < F := by
      have : 1 * k ≤ a.data.length * k := Nat.mul_le_mul_right _ (by omega)
      omega
    have hidx' : 8 * (a.indices.length : Int) ≤ i64Max := by
      have : a.indices.length * 1 ≤ a.indices.length * k := Nat.mul_le_mul_left _ hk
      omega
    have hlast : index (sufProds shape) (shape.length - 1) = .ok 1 := by
      have hl := sufProds_last ((restAxes a.shape.length [axis]).map fun d => a.shape.getD d 0) k
      have hlt : (sufProds shape).length - 1 < (sufProds shape).length := by
        rw [sufProds_length]; have := List.length_pos_iff.2 hshape; omega
      rw [List.getD_eq_getElem _ _ hlt] at hl
      rw [← sufProds_length shape, index_eq hlt]
      exact congrArg _ hl
    refine ⟨ndBuild shape (sufProds shape) (L'.map fun e => (rowMajor shape e.1, e.2)), ?_, ?_⟩
    · unfold spmmNdP
      rw [decide_eq_true hax]
      simp only [assertP, if_true, ok_bind, hrem]
      rw [index_eq hax, ok_bind, mulUsize_eq hm', ok_bind, if_pos hbl, ok_bind, mapM_index (d0 := 0) _ hrlt, ok_bind,
        if_neg (by omega)]
      show (expectP (stridesPos? shape) >>= _) = _
      rw [stridesPos?_eq hshape hno]
      simp only [expectP, ok_bind]
      show (index (sufProds shape) (shape.length - 1) >>= _) = _
      rw [hlast, ok_bind, mulUsize_eq (by omega), ok_bind, c1, ok_bind,
        spmmLoop_eq ha hai hidx' (by rw [sufProds_length]; simp) hrlt hax hb (by omega) hkF hops _, c2, ok_bind, c4, ok_bind,
        c5, withCapP_ok (by rw [List.length_map]; push_cast at *; omega), ok_bind, List.filter_map, hp]
      refine ndBuildP_ofEntries hno (fun e he => c7 e (hsub e he)) (fun e he => c8 e (hsub e he)) ?_ ?_
      · show 8 * ((L'.length : Nat) : Int) ≤ i64Max
        omega
      · have h1 : L'.length * shape.length ≤ (a.data.length * k) * a.shape.length := Nat.mul_le_mul (by omega) hshl
        have h2 : (a.data.length * k) * a.shape.length = a.indices.length * k := by
          rw [ha.length, Nat.mul_right_comm]
        show 8 * ((L'.length * shape.length : Nat) : Int) ≤ i64Max
        omega
    · unfold spmmNd
      simp only
      rw [if_neg (by simpa using hax), wrapMul_eq hm, if_neg (by simpa using hb), hrem, if_neg (by omega)]
      show (stridesPos? shape).bind _ = _
      rw [stridesPos?_eq hshape hno]
      simp only [Option.bind_some]
      rw [sufProds_last, hops, hw]
      simp only [Option.bind_some]
      rw [c3]
      simp only [Option.bind_some]
      rw [c5, List.filter_map, hp]

/-- C68: in ideal arithmetic, what the executed product returns. -/
theorem spmm_nd_ptr_correct [Semiring V] [BEq V] [LawfulBEq V] {dbg : Bool} {F : Nat}
    {sort : List (Nat × V) → List (Nat × V)} (hsort : IsSort sort) {a : CooNd V} (ha : a.WF) (hai : a.I64) {axis : Nat}
    (hax : axis < a.shape.length) {b : List V} {k : Nat} (hk : 0 < k) (hb : b.length = a.shape.getD axis 0 * k)
    (hm : a.shape.getD axis 0 * k ≤ usizeMax) (hki : (k : Int) ≤ i64Max + 1)
    (hno : NoOverflow ((restAxes a.shape.length [axis]).map (fun d => a.shape.getD d 0) ++ [k]))
    (hmap : 24 * ((a.data.length * k : Nat) : Int) ≤ i64Max) (hidx : 8 * ((a.indices.length * k : Nat) : Int) ≤ i64Max)
    (hF : 3 * (a.data.length * k) + 16 ≤ F) :
    ∃ r, spmmNdP dbg F sort a axis b k = .ok r ∧
      r.shape = (restAxes a.shape.length [axis]).map (fun d => a.shape.getD d 0) ++ [k] ∧
      r.WF ∧ r.Sorted ∧ r.NoZeros ∧
      ∀ y c, c < k → r.val (y ++ [(c : Int)]) =
        (((indicesOf a.shape).filter fun z => select (restAxes a.shape.length [axis]) z == y).map
          fun z => a.val z * b.getD ((z.getD axis 0).toNat * k + c) 0).sum := by
  obtain ⟨r, h1, h2⟩ := spmm_nd_ptr (dbg := dbg) hsort ha hai hax hk hb hm hki hno hmap hidx hF
  obtain ⟨r', g1, g2, g3, -, g5, g6, g7⟩ := spmm_nd_correct hsort ha hai hax hk hb hm hki hno
  rw [h2] at g1
  cases g1
  exact ⟨r, h1, g2, g3, g5, g6, g7⟩

/-- C68: a wrong axis or a dense factor of the wrong length is rejected before any access. -/
theorem spmm_nd_ptr_rejects [Zero V] [Add V] [Mul V] [BEq V] (dbg : Bool) (F : Nat)
    (sort : List (Nat × V) → List (Nat × V)) (a : CooNd V) (axis : Nat) (b : List V) (k : Nat)
    (h : ¬ axis < a.shape.length ∨ b.length ≠ wrapMul (a.shape.getD axis 0) k) :
    spmmNdP dbg F sort a axis b k = .error .panic := by
  unfold spmmNdP
  by_cases h1 : axis < a.shape.length
  swap
  · rw [decide_eq_false h1]; rfl
  rw [decide_eq_true h1, index_eq h1]
  simp only [assertP, if_true, ok_bind]
  have h2 : b.length ≠ wrapMul a.shape[axis] k := by
    rcases h with h | h
    · exact absurd h1 h
    · rwa [List.getD_eq_getElem _ _ h1] at h
  unfold mulUsize
  split
  · rename_i hle
    rw [wrapMul_eq hle] at h2
    rw [ok_bind, if_neg (by simpa using h2)]
    rfl
  · cases dbg
    · rw [if_neg (by decide), ok_bind, if_neg (by
        unfold wrapMul usizeMax at h2
        simpa using h2)]
      rfl
    · rfl

/-- C68: no columns: an empty array of the right shape. -/
theorem spmm_nd_ptr_no_columns [Zero V] [Add V] [Mul V] [BEq V] (dbg : Bool) (F : Nat)
    (sort : List (Nat × V) → List (Nat × V)) (a : CooNd V) {axis : Nat} (hax : axis < a.shape.length) :
    spmmNdP dbg F sort a axis [] 0 =
      .ok ⟨(restAxes a.shape.length [axis]).map (fun d => a.shape.getD d 0) ++ [0], [], []⟩ := by
  have hrem : (List.range a.shape.length).filter (fun d => decide (d ≠ axis)) = restAxes a.shape.length [axis] := by
    unfold restAxes
    apply List.filter_congr
    intro d _
    by_cases h : d = axis <;> simp [h]
  have hrlt : ∀ d ∈ restAxes a.shape.length [axis], d < a.shape.length := by
    intro d hd
    have := (List.mem_filter.1 hd).1
    simpa using this
  unfold spmmNdP
  rw [decide_eq_true hax]
  simp only [assertP, if_true, ok_bind, hrem]
  rw [index_eq hax, ok_bind, mulUsize_eq (by simp), ok_bind, Nat.mul_zero, if_pos (by rfl), ok_bind,
    mapM_index (d0 := 0) _ hrlt, ok_bind, if_pos (.inr trivial)]
  rfl

/-! ### What goes wrong -/

/-- C68: the row of the first stored entry starts at or behind the end of the dense factor: it
is read outside it, in either build. -/
theorem spmm_nd_first_ub [Zero V] [Add V] [Mul V] [BEq V] {dbg : Bool} {F : Nat} (sort : List (Nat × V) → List (Nat × V))
    {a : CooNd V} {axis : Nat} (hax : axis < a.shape.length) {b : List V} {k rb lin : Nat} {x : Int} (hk : 0 < k) (hF : 0 < F)
    (hn : 0 < a.data.length) (hcap : 16 * ((a.data.length * min k 8 : Nat) : Int) ≤ i64Max)
    (hlen : mulUsize dbg (a.shape.getD axis 0) k = .ok b.length)
    (hno : NoOverflow ((restAxes a.shape.length [axis]).map (fun d => a.shape.getD d 0) ++ [k]))
    (hr : a.shape.length ≤ usizeMax) (h0 : ∀ i ∈ a.indices, 0 ≤ i) (hx : a.indices[axis]? = some x)
    (hlin : linAxes a.indices 0 ((restAxes a.shape.length [axis]).zip
      (sufProds ((restAxes a.shape.length [axis]).map (fun d => a.shape.getD d 0) ++ [k]))) 0 = some lin)
    (hrow : mulUsize dbg (i64ToUsize x) k = .ok rb) (hrb : rb ≤ usizeMax) (hout : b.length ≤ rb) :
    spmmNdP dbg F sort a axis b k = .error .ub := by
  have hrlt : ∀ d ∈ restAxes a.shape.length [axis], d < a.shape.length := by
    intro d hd
    have := (List.mem_filter.1 hd).1
    simpa using this
  have hrem : (List.range a.shape.length).filter (fun d => decide (d ≠ axis)) = restAxes a.shape.length [axis] := by
    unfold restAxes
    apply List.filter_congr
    intro d _
    by_cases h : d = axis <;> simp [h]
  have hx0 : 0 ≤ x := h0 x (List.mem_of_getElem? hx)
  let shape := (restAxes a.shape.length [axis]).map (fun d => a.shape.getD d 0) ++ [k]
  have hshape : shape ≠ [] := by simp [shape]
  have hcapu : a.data.length * min k 8 ≤ usizeMax := by unfold i64Max at hcap; unfold usizeMax; omega
  have hread : ∀ av : V, mmReadP b av rb = .error .ub := by
    intro av
    unfold mmReadP
    rw [asPtr_get_ub hout]
    rfl
  have hcols : ∀ (av : V) (sk : Nat) (m : HMap V), mmColsP dbg F b av k rb lin sk m = .error .ub := by
    intro av sk m
    have b4 : mmBody4P dbg F b av rb lin sk (0, m) = .error .ub := by
      unfold mmBody4P
      rw [addUsize_zero dbg hrb, ok_bind, hread]
      rfl
    have b1 : mmBody1P dbg F b av rb lin sk (0, m) = .error .ub := by
      unfold mmBody1P
      rw [addUsize_zero dbg hrb, ok_bind, hread]
      rfl
    unfold mmColsP
    by_cases h4 : 0 < andNot k 3
    · rw [untilP_first_err hF h4 b4]
      rfl
    · rw [untilP_done hF (by simp only; omega), ok_bind, untilP_first_err hF hk b1]
      rfl
  obtain ⟨n', hn'⟩ : ∃ n', a.data.length = n' + 1 := ⟨a.data.length - 1, by omega⟩
  have hlast : index (sufProds shape) (shape.length - 1) = .ok 1 := by
    have hl := sufProds_last ((restAxes a.shape.length [axis]).map fun d => a.shape.getD d 0) k
    have hlt : (sufProds shape).length - 1 < (sufProds shape).length := by
      rw [sufProds_length]; have := List.length_pos_iff.2 hshape; omega
    rw [List.getD_eq_getElem _ _ hlt] at hl
    rw [← sufProds_length shape, index_eq hlt]
    exact congrArg _ hl
  have hentry : ∀ m : HMap V, spmmNdEntryP dbg F a axis b k (sufProds shape) (restAxes a.shape.length [axis]) 1 m 0 =
      .error .ub := by
    intro m
    unfold spmmNdEntryP
    rw [mulUsize_eq (by omega), Nat.zero_mul, ok_bind, addUsize_eq (by omega), Nat.zero_add, ok_bind,
      show index a.indices axis = .ok x by unfold index; rw [hx], ok_bind, i64ToUsizeP_of (fun _ => hx0), ok_bind,
      linIdxP_of (by rw [sufProds_length]; simp) (fun d hd => by have := hrlt d hd; omega) h0 hlin, ok_bind,
      index_eq hn, ok_bind, hrow, ok_bind]
    exact hcols _ _ _
  unfold spmmNdP
  rw [decide_eq_true hax]
  rw [List.getD_eq_getElem _ _ hax] at hlen
  simp only [assertP, if_true, ok_bind, hrem]
  rw [index_eq hax, ok_bind, hlen, ok_bind, if_pos (beq_self_eq_true _), ok_bind, mapM_index (d0 := 0) _ hrlt, ok_bind,
    if_neg (by omega)]
  show (expectP (stridesPos? shape) >>= _) = _
  rw [stridesPos?_eq hshape hno]
  simp only [expectP, ok_bind]
  show (index (sufProds shape) (shape.length - 1) >>= _) = _
  rw [hlast, ok_bind, mulUsize_eq hcapu, ok_bind, withCapacityP_eq (by push_cast at *; exact hcap), ok_bind, hn',
    List.range_succ_eq_map, List.foldlM_cons, hentry]
  rfl

/-- C68: with `check=False`, a first entry whose coordinate along the contracted axis is at or
past the extent reads the dense factor outside, in either build. -/
theorem spmm_nd_ub [Zero V] [Add V] [Mul V] [BEq V] {dbg : Bool} {F : Nat} (sort : List (Nat × V) → List (Nat × V))
    {a : CooNd V} {axis : Nat} (hax : axis < a.shape.length) {b : List V} {k : Nat} {x : Int} (hk : 0 < k) (hF : 0 < F)
    (hn : 0 < a.data.length) (hcap : 16 * ((a.data.length * min k 8 : Nat) : Int) ≤ i64Max)
    (hb : b.length = a.shape.getD axis 0 * k) (hi : a.I64)
    (hno : NoOverflow ((restAxes a.shape.length [axis]).map (fun d => a.shape.getD d 0) ++ [k]))
    (hr : a.shape.length ≤ usizeMax) (h0 : ∀ i ∈ a.indices, 0 ≤ i) (hx : a.indices[axis]? = some x)
    (hrest : ∀ d < a.shape.length, d ≠ axis → ∃ i, a.indices[d]? = some i ∧ i < a.shape.getD d 0)
    (hge : (a.shape.getD axis 0 : Int) ≤ x) (hfit : x * k ≤ usizeMax) :
    spmmNdP dbg F sort a axis b k = .error .ub := by
  have hrmem : ∀ d ∈ restAxes a.shape.length [axis], d < a.shape.length ∧ d ≠ axis := by
    intro d hd
    obtain ⟨h1, h2⟩ := List.mem_filter.1 hd
    exact ⟨by simpa using h1, by simpa using h2⟩
  have hx0 : 0 ≤ x := h0 x (List.mem_of_getElem? hx)
  have hxi : x ≤ i64Max := hi x (List.mem_of_getElem? hx)
  have hxu : i64ToUsize x = x.toNat := i64ToUsize_of_nonneg hx0 hxi
  have hmul : x.toNat * k ≤ usizeMax := by
    have : ((x.toNat * k : Nat) : Int) ≤ usizeMax := by
      push_cast
      rw [Int.toNat_of_nonneg hx0]
      exact hfit
    exact_mod_cast this
  have hle : a.shape.getD axis 0 * k ≤ x.toNat * k := Nat.mul_le_mul_right _ (by omega)
  have hin : InBounds ((restAxes a.shape.length [axis]).map fun d => a.shape.getD d 0)
      ((restAxes a.shape.length [axis]).map fun d => (a.indices[d]?).getD 0) := by
    have key : ∀ l : List Nat, (∀ d ∈ l, d ∈ restAxes a.shape.length [axis]) →
        InBounds (l.map fun d => a.shape.getD d 0) (l.map fun d => (a.indices[d]?).getD 0) := by
      intro l
      induction l with
      | nil => intro _; exact .nil
      | cons d l ih =>
        intro h
        obtain ⟨h1, h2⟩ := hrmem d (h d (by simp))
        obtain ⟨i, hi1, hi2⟩ := hrest d h1 h2
        rw [List.map_cons, List.map_cons, inBounds_cons]
        refine ⟨?_, ih fun d' hd => h d' (by simp [hd])⟩
        rw [hi1]
        exact ⟨h0 i (List.mem_of_getElem? hi1), hi2⟩
    exact key _ fun d hd => hd
  refine spmm_nd_first_ub sort hax hk hF hn hcap (rb := x.toNat * k) (by rw [mulUsize_eq (by omega), hb]) hno hr h0 hx
    (linAxes_prefix hk hin ?_ 0 ?_ ?_) (by rw [hxu, mulUsize_eq hmul]) hmul (by omega)
  · rw [List.map_map]
    refine List.map_congr_left fun d hd => ?_
    obtain ⟨h1, h2⟩ := hrmem d hd
    obtain ⟨i, hi1, -⟩ := hrest d h1 h2
    simp only [Nat.zero_add, Function.comp, hi1, Option.getD_some]
  · have := hno _ (List.suffix_refl _)
    omega
  · intro i hi'
    obtain ⟨d, hd, rfl⟩ := List.mem_map.1 hi'
    obtain ⟨h1, h2⟩ := hrmem d hd
    obtain ⟨i, hi1, -⟩ := hrest d h1 h2
    rw [hi1, Option.getD_some]
    have := hi i (List.mem_of_getElem? hi1)
    unfold i64Max at this
    omega

/-! ### tensordot -/

/-- The checks of `tensordot` exclude a wrapped length. -/
theorem tensordotCols_fits {m bl k : Nat} {bShape : List Nat} (h : tensordotCols m bl bShape = some k) :
    bl = m * k ∧ m * k ≤ usizeMax ∧ k = (bShape.drop 1).prod := by
  unfold tensordotCols at h
  split at h
  · cases h
  obtain ⟨e, he, h⟩ := Option.bind_eq_some_iff.1 h
  split at h
  · cases h
  split at h
  · cases h
  rename_i h1 _ h2 h3
  cases bShape with
  | nil => exact absurd rfl h1
  | cons d rest =>
    simp only [List.drop_succ_cons, List.drop_zero] at h
    simp only [List.getD_cons_zero, ne_eq, not_not] at h3
    obtain ⟨e1, e2⟩ := productChecked_some he
    obtain ⟨f1, f2⟩ := productChecked_some h
    rw [List.prod_cons] at e1
    subst h3
    simp only [ne_eq, not_not] at h2
    refine ⟨?_, ?_, ?_⟩ <;> simp_all

/-- C68: `tensordot` of any array and any dense tensor, either build: free of undefined
behaviour if the stored coordinates along the contracted axis are in range. -/
theorem tensordot_nd_no_ub [Zero V] [Add V] [Mul V] [BEq V] (dbg : Bool) {F : Nat}
    (sort : List (Nat × V) → List (Nat × V)) (a : CooNd V) (axis : Nat) (b : List V) {bShape : List Nat}
    (hF : (bShape.drop 1).prod < F) (hlen : a.data.length * a.shape.length ≤ usizeMax)
    (hax : ∀ p < a.data.length, ∀ x, a.indices[p * a.shape.length + axis]? = some x →
      0 ≤ x ∧ x < a.shape.getD axis 0) :
    tensordotNdP dbg F sort a axis b bShape ≠ .error .ub := by
  unfold tensordotNdP
  refine (NoUb.assertP _).bnd fun _ => ?_
  cases hc : tensordotCols (a.shape.getD axis 0) b.length bShape with
  | none => intro h; cases h
  | some k =>
    obtain ⟨h1, h2, h3⟩ := tensordotCols_fits hc
    simp only [expectP, ok_bind]
    exact spmm_nd_no_ub dbg sort a axis b (by omega) h2 hlen hax

/-- C68: `tensordot` called from Python with `check=True` is free of undefined behaviour,
whatever the arguments. -/
theorem py_tensordot_nd_safe [Zero V] [Add V] [Mul V] [BEq V] (dbg : Bool) {F : Nat}
    (sort : List (Nat × V) → List (Nat × V)) {shape : List Nat} {indices : List Int} {data : List V} {a : CooNd V}
    (h : CooNd.fromParts shape indices data true = .ok a) (axis : Nat) (b : List V) {bShape : List Nat}
    (hF : (bShape.drop 1).prod < F) : tensordotNdP dbg F sort a axis b bShape ≠ .error .ub := by
  obtain ⟨h1, rfl, hwf⟩ := (coond_fromParts_iff _ _ _ _).1 h
  by_cases hax : axis < shape.length
  · refine tensordot_nd_no_ub dbg sort _ axis b hF h1 fun p hp x hx => ?_
    have hb := hwf.bounds p hp axis hax
    rw [hwf.getElem? hp hax] at hx
    rw [← Option.some.inj hx, List.getD_eq_getElem _ _ hax]
    exact hb
  · unfold tensordotNdP
    rw [decide_eq_false hax]
    intro h; cases h

/-- C68: on valid operands `tensordot` returns, in either build, the contraction. -/
theorem tensordot_nd_ptr_correct [Semiring V] [BEq V] [LawfulBEq V] {dbg : Bool} {F : Nat}
    {sort : List (Nat × V) → List (Nat × V)} (hsort : IsSort sort) {a : CooNd V} (ha : a.WF) (hai : a.I64) {axis : Nat}
    (hax : axis < a.shape.length) {b : List V} {rest : List Nat} (hpos : 0 < rest.prod)
    (hr : (rest.prod : Int) ≤ i64Max + 1) (hb : b.length = a.shape.getD axis 0 * rest.prod)
    (hm : a.shape.getD axis 0 * rest.prod ≤ usizeMax)
    (hno : NoOverflow ((restAxes a.shape.length [axis]).map (fun d => a.shape.getD d 0) ++ [rest.prod]))
    (hmap : 24 * ((a.data.length * rest.prod : Nat) : Int) ≤ i64Max)
    (hidx : 8 * ((a.indices.length * rest.prod : Nat) : Int) ≤ i64Max)
    (hF : 3 * (a.data.length * rest.prod) + 16 ≤ F) :
    ∃ r, tensordotNdP dbg F sort a axis b (a.shape.getD axis 0 :: rest) = .ok r ∧
      r.shape = (restAxes a.shape.length [axis]).map (fun d => a.shape.getD d 0) ++ [rest.prod] ∧
      r.WF ∧ r.Sorted ∧ r.NoZeros ∧
      ∀ y z, InBounds rest z → r.val (y ++ [(rowMajor rest z : Int)]) =
        (((indicesOf a.shape).filter fun x => select (restAxes a.shape.length [axis]) x == y).map fun x =>
          a.val x * b.getD (rowMajor (a.shape.getD axis 0 :: rest) (x.getD axis 0 :: z)) 0).sum := by
  have hr' : rest.prod ≤ usizeMax := by
    have := hno [rest.prod] (List.suffix_append _ _)
    simpa using this
  have hc := tensordotCols_eq hpos hr' hm hb
  obtain ⟨r, h1, h2⟩ := spmm_nd_ptr (dbg := dbg) hsort ha hai hax hpos hb hm hr hno hmap hidx hF
  obtain ⟨r', g1, g2, g3, -, g5, g6, g7⟩ := tensordot_nd_correct hsort ha hai hax hpos hr hb hm hno
  unfold tensordotNd at g1
  rw [if_neg (by simpa using hax), hc, Option.bind_some, h2] at g1
  cases g1
  refine ⟨r, ?_, g2, g3, g5, g6, g7⟩
  unfold tensordotNdP
  rw [decide_eq_true hax, hc]
  exact h1

/-! ### Witnesses -/

example : ∃ r, spmmNdP true 34 (fun l => l.mergeSort (fun a b => decide (a.1 ≤ b.1))) exN 1 [1, 2, 10, 20, 100, 200] 2 =
    .ok r ∧ r.shape = [2, 2] ∧ r.val [0, 0] = 50 ∧ r.val [1, 1] = 1400 := by
  obtain ⟨r, h1, h3, -, -, -, h2⟩ := spmm_nd_ptr_correct (dbg := true) (F := 34) (axis := 1) (k := 2)
    (b := [1, 2, 10, 20, 100, 200]) isSort_mergeSort exN_wf (by unfold CooNd.I64; decide) (by decide) (by decide)
    (by decide) (by unfold usizeMax; decide) (by unfold i64Max; decide) (noOverflow_of_pos (by decide) (by decide))
    (by unfold i64Max; decide) (by unfold i64Max; decide) (by decide)
  refine ⟨r, h1, h3.trans (by decide), (h2 [0] 0 (by decide)).trans (by decide), (h2 [1] 1 (by decide)).trans (by decide)⟩

example : spmmNdP true 34 (fun l => l.mergeSort (fun a b => decide (a.1 ≤ b.1))) exN 1 [1, 2, 10] 2 = .error .panic :=
  spmm_nd_ptr_rejects true 34 _ exN 1 [1, 2, 10] 2 (by decide +kernel)

/-- An array of extent 3 with a stored coordinate 3. -/
def exNdStray : CooNd Int := ⟨[3], [3], [1]⟩

example (dbg : Bool) (sort : List (Nat × Int) → List (Nat × Int)) :
    spmmNdP dbg 9 sort exNdStray 0 [1, 2, 3] 1 = .error .ub :=
  spmm_nd_ub sort (by decide) (by decide) (by decide) (by decide) (by unfold i64Max; decide) (by decide)
    (by unfold CooNd.I64; decide) (noOverflow_of_pos (by decide) (by decide)) (by unfold usizeMax; decide) (by decide)
    (x := 3) rfl (by decide) (by decide) (by unfold usizeMax; decide)

/-- A valid array of extent `2^40` with one stored entry. -/
def exNdTall : CooNd Int := ⟨[2 ^ 40], [0], [1]⟩
theorem exNdTall_wf : exNdTall.WF := ⟨by decide, by decide, by decide⟩

/-- C68: the length check of the kernel wraps: for a valid array of extent `2^40` and `2^24`
columns an empty dense factor passes, and the release build reads outside it; the debug build
panics. -/
theorem spmm_nd_size_wraps {F : Nat} (hF : 0 < F) (sort : List (Nat × Int) → List (Nat × Int)) :
    spmmNdP false F sort exNdTall 0 [] (2 ^ 24) = .error .ub ∧
      spmmNdP true F sort exNdTall 0 [] (2 ^ 24) = .error .panic := by
  have hmul : mulUsize false (exNdTall.shape.getD 0 0) (2 ^ 24) = .ok ([] : List Int).length := by
    show mulUsize false (2 ^ 40) (2 ^ 24) = .ok 0
    unfold mulUsize
    rw [if_neg (by unfold usizeMax; decide +kernel), if_neg (by decide),
      show 2 ^ 40 * 2 ^ 24 % 2 ^ 64 = 0 by decide +kernel]
  have hrow : mulUsize false (i64ToUsize 0) (2 ^ 24) = .ok 0 := by
    rw [show i64ToUsize 0 = 0 by decide +kernel, mulUsize_eq (by simp), Nat.zero_mul]
  constructor
  · exact spmm_nd_first_ub sort (by decide) (by decide) hF (by decide)
      (by unfold i64Max; decide) hmul (noOverflow_of_pos (by decide) (by decide)) (by unfold usizeMax; decide)
      (by decide) (x := 0) rfl (lin := 0) (by decide +kernel) (rb := 0) hrow (by decide) (by decide)
  · rfl

end Lacuna
