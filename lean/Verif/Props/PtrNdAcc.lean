import Verif.Lemmas.PtrNdAcc
/-
C67: the N-D kernels that accumulate linear keys in a `UsizeF64Map` (`add`, `sub`, `hadamard`,
`reduce_sum_axes`, `spmv`) at pointer level.  The map is written with unchecked accesses, but its
callers read the arrays with checked ones, so no array whatsoever leads outside an allocation; on
valid arrays the kernels return what the list-level model returns.
-/
namespace Lacuna
variable {V : Type}

/-! ### Any arrays -/

/-- Any two arrays, any sort, either build: adding or subtracting them is free of undefined
behaviour. -/
theorem union_nd_no_ub [Zero V] [Add V] [BEq V] (dbg : Bool) (F : Nat) (f : V → V)
    (sort : List (Nat × V) → List (Nat × V)) (a b : CooNd V) : unionNdP dbg F f sort a b ≠ .error .ub := by
  refine (NoUb.assertP _).bnd fun _ => (NoUb.assertP _).bnd fun _ => (NoUb.expectP _).bnd fun st =>
    (NoUb.addUsize _ _ _).bnd fun cap => ?_
  refine ((withCapacityP_safe dbg cap).bind (Q := fun _ => True) fun m hm =>
    (accLoopP_safe (fun k => NoUb.entryOpP _ _ _ _ _ _) hm).bind fun m1 hm1 =>
    (accLoopP_safe (fun k => NoUb.entryOpP _ _ _ _ _ _) hm1).bind fun m2 hm2 => SafeE.noUb ?_).1
  exact (NoUb.pairsP _).bnd fun _ => (NoUb.withCapP _ _).bnd fun _ => NoUb.ndBuildP _ _ _ _

/-- C67: addition of any two N-D arrays is free of undefined behaviour. -/
theorem add_nd_no_ub [Zero V] [Add V] [BEq V] (dbg : Bool) (F : Nat) (sort : List (Nat × V) → List (Nat × V))
    (a b : CooNd V) : addNdP dbg F sort a b ≠ .error .ub := union_nd_no_ub dbg F id sort a b

/-- C67: subtraction of any two N-D arrays is free of undefined behaviour. -/
theorem sub_nd_no_ub [Zero V] [Add V] [Neg V] [BEq V] (dbg : Bool) (F : Nat) (sort : List (Nat × V) → List (Nat × V))
    (a b : CooNd V) : subNdP dbg F sort a b ≠ .error .ub := union_nd_no_ub dbg F (fun v => -v) sort a b

/-- C67: the Hadamard product of any two N-D arrays is free of undefined behaviour. -/
theorem hadamard_nd_no_ub [Zero V] [Add V] [Mul V] [BEq V] (dbg : Bool) (F : Nat)
    (sort : List (Nat × V) → List (Nat × V)) (a b : CooNd V) : hadamardNdP dbg F sort a b ≠ .error .ub := by
  refine (NoUb.assertP _).bnd fun _ => (NoUb.assertP _).bnd fun _ => (NoUb.expectP _).bnd fun st => ?_
  refine ((withCapacityP_safe dbg _).bind (Q := fun _ => True) fun m hm =>
    (accLoopP_safe (fun k => NoUb.entryOpP _ _ _ _ _ _) hm).bind fun m1 hm1 =>
    (withCapacityP_safe dbg _).bind fun m' hm' =>
    (accLoopP_safe (fun k => NoUb.entryOpP _ _ _ _ _ _) hm').bind fun m2 hm2 => SafeE.noUb ?_).1
  exact (NoUb.pairsP _).bnd fun _ => (NoUb.pairsP _).bnd fun _ => (NoUb.withCapP _ _).bnd fun _ => NoUb.ndBuildP _ _ _ _

/-- C67: summing any N-D array over any axes is free of undefined behaviour. -/
theorem reduce_sum_nd_no_ub [Zero V] [Add V] (dbg : Bool) (F : Nat) (sort : List (Nat × V) → List (Nat × V))
    (a : CooNd V) (axes : List Nat) : reduceSumNdP dbg F sort a axes ≠ .error .ub := by
  refine (NoUb.assertP _).bnd fun _ => (NoUb.expectP _).bnd fun _ => (NoUb.assertP _).bnd fun _ =>
    (NoUb.mapM _ fun _ _ => NoUb.index _ _).bnd fun _ => (NoUb.expectP _).bnd fun _ => ?_
  split
  · exact NoUb.ok _
  refine ((withCapacityP_safe dbg _).bind (Q := fun _ => True) fun m hm =>
    (accLoopP_safe (fun k => NoUb.entryOpP _ _ _ _ _ _) hm).bind fun m1 hm1 => SafeE.noUb ?_).1
  exact (NoUb.pairsP _).bnd fun _ => NoUb.ndBuildP _ _ _ _

/-- C67: the product of any N-D array with any vector is free of undefined behaviour. -/
theorem spmv_nd_no_ub [Zero V] [Add V] [Mul V] [BEq V] (dbg : Bool) (F : Nat) (sort : List (Nat × V) → List (Nat × V))
    (a : CooNd V) (axis : Nat) (x : List V) : spmvNdP dbg F sort a axis x ≠ .error .ub := by
  refine (NoUb.assertP _).bnd fun _ => (NoUb.index _ _).bnd fun _ => (NoUb.assertP _).bnd fun _ =>
    (NoUb.assertP _).bnd fun _ => (NoUb.mapM _ fun _ _ => NoUb.index _ _).bnd fun _ => ?_
  split
  · exact NoUb.ok _
  refine (NoUb.expectP _).bnd fun _ => ((withCapacityP_safe dbg _).bind (Q := fun _ => True) fun m hm =>
    (accLoopP_safe (fun k => NoUb.spmvNdOpP _ _ _ _ _ _ _) hm).bind fun m1 hm1 => SafeE.noUb ?_).1
  exact (NoUb.pairsP _).bnd fun _ => NoUb.ndBuildP _ _ _ _

/-! ### Valid arrays: the list-level result -/

/-- The full linearisation of the entries performs the list-level insertions. -/
theorem fullLoop_eq [Zero V] [Add V] {dbg : Bool} {F : Nat} {a : CooNd V} (h : a.WF) (hi : a.I64)
    (hno : NoOverflow a.shape) (hm : 8 * (a.indices.length : Int) ≤ i64Max) (f : V → V) (m : HMap V) :
    accLoopP dbg F a.data.length (entryOpP dbg a (sufProds a.shape) (List.range a.shape.length) f) m =
      m.insertAllP dbg F (a.entries.map fun e => (rowMajor a.shape e.1, f e.2)) :=
  (entryLoop_eq h hm (by rw [sufProds_length, List.length_range]) (fun d hd => List.mem_range.1 hd)
    (ndOps_full h hi hno f) m).1

theorem union_nd_ptr [Zero V] [Add V] [BEq V] {dbg : Bool} {F : Nat} (f : V → V)
    {sort : List (Nat × V) → List (Nat × V)} (hsort : IsSort sort) {a b : CooNd V} (ha : a.WF) (hb : b.WF)
    (hai : a.I64) (hbi : b.I64) (hsh : a.shape = b.shape) (hno : NoOverflow a.shape)
    (hmap : 24 * ((a.data.length + b.data.length : Nat) : Int) ≤ i64Max)
    (hidx : 8 * ((a.indices.length + b.indices.length : Nat) : Int) ≤ i64Max)
    (hF : 3 * (a.data.length + b.data.length) + 16 ≤ F) :
    ∃ r, unionNdP dbg F f sort a b = .ok r ∧ unionNd f sort a b = some r := by
  let E := a.entries ++ b.entries.map fun e => (e.1, f e.2)
  have hEb : ∀ e ∈ E, InBounds a.shape e.1 := by
    intro e he
    rcases List.mem_append.1 he with he | he
    · exact ha.entries_inBounds e he
    · obtain ⟨e', he', rfl⟩ := List.mem_map.1 he
      rw [hsh]; exact hb.entries_inBounds e' he'
  have hEi : ∀ e ∈ E, ∀ i ∈ e.1, i ≤ i64Max := by
    intro e he
    rcases List.mem_append.1 he with he | he
    · exact CooNd.WF.entries_i64 hai e he
    · obtain ⟨e', he', rfl⟩ := List.mem_map.1 he
      exact CooNd.WF.entries_i64 hbi e' he'
  have hEl : E.length = a.data.length + b.data.length := by
    simp only [E, List.length_append, List.length_map, CooNd.entries_length]
  obtain ⟨m, L, c1, c2, c3, c4, c5, c6, c7, c8⟩ := collectNdP (dbg := dbg) (F := F)
    (cap := a.data.length + b.data.length) (N := a.data.length + b.data.length) hsort hno hEb hEi (by omega)
    (Nat.le_refl _) hF hmap
  have he : a.entries.map (fun e => (rowMajor a.shape e.1, id e.2)) ++
      b.entries.map (fun e => (rowMajor a.shape e.1, f e.2)) =
      E.map fun e => (rowMajor a.shape e.1, e.2) := by
    simp only [E, List.map_append, List.map_map, id]; rfl
  have hp : ((fun e : Nat × V => !(e.2 == 0)) ∘ fun e : List Int × V => (rowMajor a.shape e.1, e.2))
      = fun e : List Int × V => !(e.2 == 0) := rfl
  let L' := L.filter fun e => !(e.2 == 0)
  have hL' : L'.length ≤ L.length := List.length_filter_le _ _
  have hsub : ∀ e ∈ L', e ∈ L := fun e he => (List.mem_filter.1 he).1
  refine ⟨ndBuild a.shape (sufProds a.shape) (L'.map fun e => (rowMajor a.shape e.1, e.2)), ?_, ?_⟩
  · have hU : a.data.length + b.data.length ≤ usizeMax := by unfold i64Max at hmap; unfold usizeMax; omega
    have hob := fullLoop_eq (dbg := dbg) (F := F) hb hbi (hsh ▸ hno) (by omega) f
    rw [← hsh] at hob
    unfold unionNdP
    rw [hsh, beq_self_eq_true, beq_self_eq_true, ← hsh]
    simp only [assertP, if_true, ok_bind]
    rw [stridesPos?_eq ha.rank hno]
    simp only [expectP, ok_bind]
    rw [addUsize_eq hU, ok_bind, c1, ok_bind, sufProds_length, fullLoop_eq ha hai hno (by omega)]
    simp only [hob]
    rw [← bind_assoc, ← insertAllP_append, he, c2, ok_bind, c4, ok_bind, c5, withCapP_ok (by
      rw [List.length_map]; push_cast at *; omega), ok_bind, List.filter_map, hp]
    refine ndBuildP_ofEntries hno (fun e he => c7 e (hsub e he)) (fun e he => c8 e (hsub e he)) ?_ ?_
    · have : (List.filter (fun e : List Int × V => !(e.2 == 0)) L).length ≤ E.length := by
        show L'.length ≤ _; omega
      omega
    · have h1 : L'.length * a.shape.length ≤ E.length * a.shape.length := Nat.mul_le_mul_right _ (by omega)
      have h2 : E.length * a.shape.length = a.indices.length + b.indices.length := by
        rw [hEl, Nat.add_mul, ha.length, hb.length, hsh]
      have h3 : L'.length * a.shape.length ≤ a.indices.length + b.indices.length := by omega
      show 8 * ((L'.length * a.shape.length : Nat) : Int) ≤ i64Max
      omega
  · unfold unionNd
    rw [if_neg (by simp [hsh]), if_neg (by simp [hsh]), stridesPos?_eq ha.rank hno]
    simp only [Option.bind_some]
    rw [sufProds_length, ndOps_full ha hai hno]
    simp only [Option.bind_some]
    have hob := ndOps_full hb hbi (hsh ▸ hno) f
    rw [← hsh] at hob
    rw [hob]
    simp only [Option.bind_some]
    rw [he, c3]
    simp only [Option.bind_some]
    rw [c5, List.filter_map, hp]

/-- C67: on valid arrays of one shape `add` returns, in either build, the array of the sums. -/
theorem add_nd_ptr [AddMonoid V] [BEq V] [LawfulBEq V] {dbg : Bool} {F : Nat}
    {sort : List (Nat × V) → List (Nat × V)} (hsort : IsSort sort) {a b : CooNd V} (ha : a.WF) (hb : b.WF)
    (hai : a.I64) (hbi : b.I64) (hsh : a.shape = b.shape) (hno : NoOverflow a.shape)
    (hmap : 24 * ((a.data.length + b.data.length : Nat) : Int) ≤ i64Max)
    (hidx : 8 * ((a.indices.length + b.indices.length : Nat) : Int) ≤ i64Max)
    (hF : 3 * (a.data.length + b.data.length) + 16 ≤ F) :
    ∃ r, addNdP dbg F sort a b = .ok r ∧ addNd sort a b = some r ∧ r.shape = a.shape ∧ r.WF ∧ r.Sorted ∧ r.NoZeros ∧
      ∀ x, r.val x = a.val x + b.val x := by
  obtain ⟨r, h1, h2⟩ := union_nd_ptr (dbg := dbg) (F := F) id hsort ha hb hai hbi hsh hno hmap hidx hF
  obtain ⟨r', g1, g2, g3, -, g5, g6, g7⟩ := add_coond_correct hsort ha hb hai hbi hsh hno
  have : r' = r := by
    unfold addNd at g1; rw [h2] at g1; cases g1; rfl
  subst this
  exact ⟨r', h1, g1, g2, g3, g5, g6, g7⟩

/-- C67: the same for `sub`. -/
theorem sub_nd_ptr [AddCommGroup V] [BEq V] [LawfulBEq V] {dbg : Bool} {F : Nat}
    {sort : List (Nat × V) → List (Nat × V)} (hsort : IsSort sort) {a b : CooNd V} (ha : a.WF) (hb : b.WF)
    (hai : a.I64) (hbi : b.I64) (hsh : a.shape = b.shape) (hno : NoOverflow a.shape)
    (hmap : 24 * ((a.data.length + b.data.length : Nat) : Int) ≤ i64Max)
    (hidx : 8 * ((a.indices.length + b.indices.length : Nat) : Int) ≤ i64Max)
    (hF : 3 * (a.data.length + b.data.length) + 16 ≤ F) :
    ∃ r, subNdP dbg F sort a b = .ok r ∧ subNd sort a b = some r ∧ r.shape = a.shape ∧ r.WF ∧ r.Sorted ∧ r.NoZeros ∧
      ∀ x, r.val x = a.val x - b.val x := by
  obtain ⟨r, h1, h2⟩ := union_nd_ptr (dbg := dbg) (F := F) (fun v => -v) hsort ha hb hai hbi hsh hno hmap hidx hF
  obtain ⟨r', g1, g2, g3, -, g5, g6, g7⟩ := sub_coond_correct hsort ha hb hai hbi hsh hno
  have : r' = r := by
    unfold subNd at g1; rw [h2] at g1; cases g1; rfl
  subst this
  exact ⟨r', h1, g1, g2, g3, g5, g6, g7⟩

theorem mulMerge_length [Zero V] [Mul V] [BEq V] : ∀ (p q : List (Nat × V)), (mulMerge p q).length ≤ p.length
  | [], q => by simp [mulMerge]
  | (ka, va) :: pa, [] => by simp [mulMerge]
  | (ka, va) :: pa, (kb, vb) :: pb => by
    rw [mulMerge]
    split
    · split
      · have := mulMerge_length pa pb; simp only [List.length_cons]; omega
      · have := mulMerge_length pa pb; simp only [List.length_cons]; omega
    · split
      · have := mulMerge_length pa ((kb, vb) :: pb); simp only [List.length_cons]; omega
      · exact mulMerge_length ((ka, va) :: pa) pb
termination_by p q => p.length + q.length

theorem mulMerge_fst [Zero V] [Mul V] [BEq V] : ∀ (p q : List (Nat × V)), ∀ e ∈ mulMerge p q, e.1 ∈ p.map Prod.fst
  | [], q => by simp [mulMerge]
  | (ka, va) :: pa, [] => by simp [mulMerge]
  | (ka, va) :: pa, (kb, vb) :: pb => by
    intro e he
    rw [mulMerge] at he
    split at he
    · split at he
      · exact List.mem_cons_of_mem _ (mulMerge_fst pa pb e he)
      · rcases List.mem_cons.1 he with rfl | he
        · simp
        · exact List.mem_cons_of_mem _ (mulMerge_fst pa pb e he)
    · split at he
      · exact List.mem_cons_of_mem _ (mulMerge_fst pa ((kb, vb) :: pb) e he)
      · exact mulMerge_fst ((ka, va) :: pa) pb e he
termination_by p q => p.length + q.length

/-- C67: on valid arrays of one shape the Hadamard product returns, in either build, the array of
the products. -/
theorem hadamard_nd_ptr [AddMonoid V] [Mul V] [BEq V] [LawfulBEq V] (hz1 : ∀ v : V, 0 * v = 0) (hz2 : ∀ v : V, v * 0 = 0)
    {dbg : Bool} {F : Nat} {sort : List (Nat × V) → List (Nat × V)} (hsort : IsSort sort) {a b : CooNd V}
    (ha : a.WF) (hb : b.WF) (hai : a.I64) (hbi : b.I64) (hsh : a.shape = b.shape) (hno : NoOverflow a.shape)
    (hma : 24 * (a.data.length : Int) ≤ i64Max) (hmb : 24 * (b.data.length : Int) ≤ i64Max)
    (hia : 8 * (a.indices.length : Int) ≤ i64Max) (hib : 8 * (b.indices.length : Int) ≤ i64Max)
    (hFa : 3 * a.data.length + 16 ≤ F) (hFb : 3 * b.data.length + 16 ≤ F) :
    ∃ r, hadamardNdP dbg F sort a b = .ok r ∧ hadamardNd sort a b = some r ∧ r.shape = a.shape ∧ r.WF ∧ r.Sorted ∧
      r.NoZeros ∧ ∀ x, r.val x = a.val x * b.val x := by
  have hbb : ∀ e ∈ b.entries, InBounds a.shape e.1 := by rw [hsh]; exact hb.entries_inBounds
  obtain ⟨ma, LA, a1, a2, a3, a4, a5, a6, a7, a8⟩ := collectNdP (dbg := dbg) (F := F) (cap := a.data.length)
    (N := a.data.length) hsort hno ha.entries_inBounds (CooNd.WF.entries_i64 hai) (by rw [CooNd.entries_length])
    (Nat.le_refl _) hFa hma
  obtain ⟨mb, LB, b1, b2, b3, b4, -, -, -, -⟩ := collectNdP (dbg := dbg) (F := F) (cap := b.data.length)
    (N := b.data.length) hsort hno hbb (CooNd.WF.entries_i64 hbi) (by rw [CooNd.entries_length])
    (Nat.le_refl _) hFb hmb
  obtain ⟨r, g1, g2, g3, -, g5, g6, g7⟩ := hadamard_coond_correct hz1 hz2 hsort ha hb hai hbi hsh hno
  refine ⟨r, ?_, g1, g2, g3, g5, g6, g7⟩
  have hlist : hadamardNd sort a b =
      some (ndBuild a.shape (sufProds a.shape) (mulMerge (sort ma.pairs) (sort mb.pairs))) := by
    unfold hadamardNd
    rw [if_neg (by simp [hsh]), if_neg (by simp [hsh]), stridesPos?_eq ha.rank hno]
    simp only [Option.bind_some]
    rw [sufProds_length, ndOps_full ha hai hno]
    simp only [Option.bind_some, id]
    rw [a3]
    simp only [Option.bind_some]
    have hob := ndOps_full hb hbi (hsh ▸ hno) id
    rw [← hsh] at hob
    rw [hob]
    simp only [Option.bind_some, id]
    rw [b3]
    simp only [Option.bind_some]
  rw [hlist] at g1
  cases g1
  have hob := fullLoop_eq (dbg := dbg) (F := F) hb hbi (hsh ▸ hno) hib id
  rw [← hsh] at hob
  have hoa := fullLoop_eq (dbg := dbg) (F := F) ha hai hno hia id
  have hlen : (mulMerge (sort ma.pairs) (sort mb.pairs)).length ≤ a.data.length := by
    refine Nat.le_trans (mulMerge_length _ _) ?_
    rw [a5, List.length_map]
    rw [CooNd.entries_length] at a6
    exact a6
  unfold hadamardNdP
  rw [hsh, beq_self_eq_true, beq_self_eq_true, ← hsh]
  simp only [assertP, if_true, ok_bind]
  rw [stridesPos?_eq ha.rank hno]
  simp only [expectP, ok_bind, sufProds_length]
  rw [a1, ok_bind]
  simp only [hoa, hob, id]
  rw [a2, ok_bind, b1, ok_bind, b2, ok_bind, a4, ok_bind, b4, ok_bind, withCapP_ok (by push_cast; omega), ok_bind]
  refine ndBuildP_eq ?_ (by omega) ?_
  · intro e he
    have h1 := mulMerge_fst _ _ e he
    rw [a5, List.map_map] at h1
    obtain ⟨e', he', h2⟩ := List.mem_map.1 h1
    simp only [Function.comp] at h2
    rw [← h2]
    refine ⟨sufProds_ne_zero (a7 e' he'), ?_, ?_⟩
    · intro x hx
      rw [delin_rowMajor (a7 e' he')] at hx
      obtain ⟨i, hi', rfl⟩ := List.mem_map.1 hx
      have := a8 e' he' i hi'
      unfold i64Max at *
      omega
    · have := rowMajor_lt (a7 e' he')
      have := hno _ (List.suffix_refl _)
      omega
  · rw [sufProds_length]
    have h1 := Nat.mul_le_mul_right a.shape.length hlen
    have := ha.length
    omega

theorem mapM_index {α : Type} [Inhabited α] {v : List α} {d0 : α} : ∀ (l : List Nat), (∀ i ∈ l, i < v.length) →
    l.mapM (index v) = .ok (l.map fun i => v.getD i d0)
  | [], _ => rfl
  | i :: l, h => by
    have hi := h i (by simp)
    rw [List.mapM_cons, index_eq hi, ok_bind, mapM_index l (fun j hj => h j (by simp [hj])), ok_bind, List.map_cons,
      List.getD_eq_getElem _ _ hi]
    rfl

/-- C67: summing a valid array over valid axes returns, in either build, the list-level result. -/
theorem reduce_sum_nd_ptr [Zero V] [Add V] {dbg : Bool} {F : Nat} {sort : List (Nat × V) → List (Nat × V)}
    (hsort : IsSort sort) {a : CooNd V} (ha : a.WF) (hai : a.I64) {axes : List Nat} (hne : axes ≠ [])
    (hlt : ∀ p ∈ axes, p < a.shape.length) (hn : axes.Nodup) (hrest : restAxes a.shape.length axes ≠ [])
    (hno : NoOverflow ((restAxes a.shape.length axes).map fun d => a.shape.getD d 0))
    (hmap : 24 * (a.data.length : Int) ≤ i64Max) (hidx : 8 * (a.indices.length : Int) ≤ i64Max)
    (hF : 3 * a.data.length + 16 ≤ F) :
    ∃ r, reduceSumNdP dbg F sort a axes = .ok r ∧ reduceSumNd sort a axes = some r := by
  have hrlt : ∀ d ∈ restAxes a.shape.length axes, d < a.shape.length := by
    intro d hd
    have := (List.mem_filter.1 hd).1
    simpa using this
  have hrlen : (restAxes a.shape.length axes).length ≤ a.shape.length := by
    unfold restAxes
    exact Nat.le_trans (List.length_filter_le _ _) (by simp)
  let shape := (restAxes a.shape.length axes).map fun d => a.shape.getD d 0
  let E := a.entries.map fun e => (select (restAxes a.shape.length axes) e.1, e.2)
  have hEb : ∀ e ∈ E, InBounds shape e.1 := by
    intro e he
    obtain ⟨e', he', rfl⟩ := List.mem_map.1 he
    exact select_inBounds ha hrlt e' he'
  have hEi : ∀ e ∈ E, ∀ i ∈ e.1, i ≤ i64Max := by
    intro e he
    obtain ⟨e', he', rfl⟩ := List.mem_map.1 he
    exact select_i64 hai _ e' he'
  have hEl : E.length = a.data.length := by simp only [E, List.length_map, CooNd.entries_length]
  obtain ⟨m, L, c1, c2, c3, c4, c5, c6, c7, c8⟩ := collectNdP (dbg := dbg) (F := F) (cap := a.data.length)
    (N := a.data.length) hsort hno hEb hEi (by omega) (Nat.le_refl _) hF hmap
  have hshape : shape ≠ [] := by simpa [shape] using hrest
  have hops : ndOps a ((restAxes a.shape.length axes).zip (sufProds shape)) id =
      some (E.map fun e => (rowMajor shape e.1, e.2)) := by
    rw [ndOps_eq ha hai hrlt hno]
    simp only [E, List.map_map, id]
    rfl
  obtain ⟨s', hs', hs''⟩ := (checkAxes_iff a.shape.length axes).2 hlt hn
  have hrem : (List.range a.shape.length).filter (fun d => !(s'.getD d false)) = restAxes a.shape.length axes := by
    unfold restAxes
    apply List.filter_congr
    intro d _
    rw [hs'']
  by_cases h0 : a.data.length = 0
  · refine ⟨⟨shape, [], []⟩, ?_, ?_⟩
    · unfold reduceSumNdP
      have he : (!axes.isEmpty) = true := by simpa using hne
      have hr : (!(restAxes a.shape.length axes).isEmpty) = true := by simpa using hrest
      rw [he, hs']
      simp only [assertP, if_true, ok_bind, expectP, hrem, hr]
      rw [mapM_index (d0 := 0) _ hrlt, ok_bind]
      show (expectP (stridesPos? shape) >>= _) = _
      rw [stridesPos?_eq hshape hno]
      simp only [expectP, ok_bind, if_pos h0]
      rfl
    · unfold reduceSumNd
      simp only
      rw [if_neg (by simpa using hne), hs']
      simp only [Option.bind_some]
      rw [hrem, if_neg (by simpa using hrest), stridesPos?_eq hshape hno]
      simp only [Option.bind_some, if_pos h0]
      rfl
  · refine ⟨ndBuild shape (sufProds shape) (L.map fun e => (rowMajor shape e.1, e.2)), ?_, ?_⟩
    · unfold reduceSumNdP
      have he : (!axes.isEmpty) = true := by simpa using hne
      have hr : (!(restAxes a.shape.length axes).isEmpty) = true := by simpa using hrest
      rw [he, hs']
      simp only [assertP, if_true, ok_bind, expectP, hrem, hr]
      rw [mapM_index (d0 := 0) _ hrlt, ok_bind]
      show (expectP (stridesPos? shape) >>= _) = _
      rw [stridesPos?_eq hshape hno]
      simp only [expectP, ok_bind, if_neg h0]
      rw [c1, ok_bind, (entryLoop_eq ha hidx (by rw [sufProds_length]; simp [shape]) hrlt hops _).1, c2, ok_bind, c4,
        ok_bind, c5]
      refine ndBuildP_ofEntries hno c7 c8 (by omega) ?_
      have h1 : L.length * shape.length ≤ a.data.length * a.shape.length :=
        Nat.mul_le_mul (by omega) (by simpa [shape] using hrlen)
      have := ha.length
      show 8 * ((L.length * shape.length : Nat) : Int) ≤ i64Max
      omega
    · unfold reduceSumNd
      simp only
      rw [if_neg (by simpa using hne), hs']
      simp only [Option.bind_some]
      rw [hrem, if_neg (by simpa using hrest), stridesPos?_eq hshape hno]
      simp only [Option.bind_some, if_neg h0]
      show ((ndOps a ((restAxes a.shape.length axes).zip (sufProds shape)) id).bind _) = _
      rw [hops]
      simp only [Option.bind_some]
      rw [c3]
      simp only [Option.bind_some]
      rw [c5]

/-- The loop of `spmv_coond` performs the list-level insertions. -/
theorem spmvLoop_eq [Zero V] [Add V] [Mul V] [BEq V] {dbg : Bool} {F : Nat} {a : CooNd V} (h : a.WF) (hi : a.I64)
    (hm : 8 * (a.indices.length : Int) ≤ i64Max) {st axes : List Nat} (hl : axes.length = st.length)
    (hax : ∀ d ∈ axes, d < a.shape.length) {axis : Nat} (haxis : axis < a.shape.length) {x : List V}
    {ops : List (Nat × V)} (ho : ndMulOps a (axes.zip st) axis x = some ops) (m : HMap V) :
    accLoopP dbg F a.data.length (spmvNdOpP dbg a axis x st axes) m = m.insertAllP dbg F ops := by
  unfold ndMulOps at ho
  obtain ⟨ops0, h0, rfl⟩ := Option.map_eq_some_iff.1 ho
  obtain ⟨h1, h2⟩ := mapM_some_get h0
  rw [List.length_zipIdx] at h1
  rw [accLoopP_eq (g := fun k => (ops0[k]?).bind (Option.guard fun o => !(o.2 == 0))), ← List.filterMap_filterMap, ← h1,
    filterMap_getElem?, List.filterMap_eq_filter]
  intro k hk
  have h3 := h2 k (by simpa using hk)
  simp only [List.getElem_zipIdx, Nat.zero_add] at h3
  have hpos : 0 < a.shape.length := List.length_pos_iff.2 h.rank
  have hs : ops0[k]? = some ops0[k] := List.getElem?_eq_getElem (by omega)
  rw [hs] at h3 ⊢
  rw [h.getElem? hk haxis] at h3
  simp only [Option.bind_some] at h3 ⊢
  obtain ⟨lin, hlin, h3⟩ := Option.bind_eq_some_iff.1 h3
  obtain ⟨xv, hxv, h3⟩ := Option.map_eq_some_iff.1 h3
  have hb := h.bounds k hk axis haxis
  have hix : index a.indices (k * a.shape.length + axis) = .ok (a.coord k axis) := by
    unfold index; rw [h.getElem? hk haxis]
  have hxi : index x (a.coord k axis).toNat = .ok xv := by
    rw [i64ToUsize_of_nonneg hb.1 (hi.coord k axis)] at hxv
    unfold index; rw [hxv]
  unfold spmvNdOpP
  rw [mulUsize_eq (pos_le h hm hk hpos).2, ok_bind, addUsize_eq (pos_le h hm hk haxis).1, ok_bind, hix, ok_bind,
    i64ToUsizeP_of (fun _ => hb.1), i64ToUsize_of_nonneg hb.1 (hi.coord k axis), ok_bind,
    linIdxP_of hl.le (fun d hd => (pos_le h hm hk (hax d hd)).1) h.nonneg hlin, ok_bind, index_eq hk, ok_bind, hxi, ok_bind,
    ← h3]
  unfold Option.guard
  simp only [Bool.not_eq_true', ← Bool.not_eq_true]
  cases a.data[k] * xv == 0 <;> rfl

/-- C67: on a valid array of rank at least two, the product with a vector along a valid axis
returns, in either build, the list-level result. -/
theorem spmv_nd_ptr [Zero V] [Add V] [Mul V] [BEq V] {dbg : Bool} {F : Nat} {sort : List (Nat × V) → List (Nat × V)}
    (hsort : IsSort sort) {a : CooNd V} (ha : a.WF) (hai : a.I64) {axis : Nat} (hax : axis < a.shape.length)
    {x : List V} (hx : x.length = a.shape.getD axis 0) (hrest : 1 < a.shape.length)
    (hno : NoOverflow ((restAxes a.shape.length [axis]).map fun d => a.shape.getD d 0))
    (hmap : 24 * (a.data.length : Int) ≤ i64Max) (hidx : 8 * (a.indices.length : Int) ≤ i64Max)
    (hF : 3 * a.data.length + 16 ≤ F) :
    ∃ r, spmvNdP dbg F sort a axis x = .ok r ∧ spmvNd sort a axis x = some r := by
  have hrlt : ∀ d ∈ restAxes a.shape.length [axis], d < a.shape.length := by
    intro d hd
    have := (List.mem_filter.1 hd).1
    simpa using this
  have hrlen : (restAxes a.shape.length [axis]).length ≤ a.shape.length := by
    unfold restAxes
    exact Nat.le_trans (List.length_filter_le _ _) (by simp)
  have hrne : restAxes a.shape.length [axis] ≠ [] := by
    intro h
    have hm : (if axis = 0 then 1 else 0) ∈ restAxes a.shape.length [axis] := by
      unfold restAxes
      rw [List.mem_filter]
      split <;> simp_all <;> omega
    rw [h] at hm; cases hm
  have hrem : (List.range a.shape.length).filter (fun d => decide (d ≠ axis)) = restAxes a.shape.length [axis] := by
    unfold restAxes
    apply List.filter_congr
    intro d _
    by_cases h : d = axis <;> simp [h]
  let shape := (restAxes a.shape.length [axis]).map fun d => a.shape.getD d 0
  let E := ndMulEntries a axis x
  have hEmem : ∀ e ∈ E, ∃ e' ∈ a.entries, e.1 = select (restAxes a.shape.length [axis]) e'.1 := by
    intro e he
    obtain ⟨e', he', rfl⟩ := List.mem_map.1 (List.mem_filter.1 he).1
    exact ⟨e', he', rfl⟩
  have hEb : ∀ e ∈ E, InBounds shape e.1 := by
    intro e he
    obtain ⟨e', he', h⟩ := hEmem e he
    rw [h]
    exact select_inBounds ha hrlt e' he'
  have hEi : ∀ e ∈ E, ∀ i ∈ e.1, i ≤ i64Max := by
    intro e he
    obtain ⟨e', he', h⟩ := hEmem e he
    rw [h]
    exact select_i64 hai _ e' he'
  have hEl : E.length ≤ a.data.length := by
    refine Nat.le_trans (List.length_filter_le _ _) ?_
    rw [List.length_map, CooNd.entries_length]
  obtain ⟨m, L, c1, c2, c3, c4, c5, c6, c7, c8⟩ := collectNdP (dbg := dbg) (F := F) (cap := a.data.length)
    (N := a.data.length) hsort hno hEb hEi hEl (Nat.le_refl _) hF hmap
  have hshape : shape ≠ [] := by simpa [shape] using hrne
  have hops := ndMulOps_eq ha hai hax hx hno
  have hr : (!(restAxes a.shape.length [axis]).isEmpty) = true := by simpa using hrne
  have hxl : (x.length == a.shape[axis]) = true := by
    rw [hx, List.getD_eq_getElem _ _ hax, beq_self_eq_true]
  by_cases h0 : a.data.length = 0
  · refine ⟨⟨shape, [], []⟩, ?_, ?_⟩
    · unfold spmvNdP
      rw [decide_eq_true hax]
      simp only [assertP, if_true, ok_bind, hrem]
      rw [index_eq hax, ok_bind, if_pos hxl, ok_bind, if_pos hr, ok_bind, mapM_index (d0 := 0) _ hrlt, ok_bind, if_pos h0]
      rfl
    · unfold spmvNd
      simp only
      rw [if_neg (by simpa using hax), if_neg (by simpa using hx), hrem, if_neg (by simpa using hrne), if_pos h0]
  · refine ⟨ndBuild shape (sufProds shape) (L.map fun e => (rowMajor shape e.1, e.2)), ?_, ?_⟩
    · unfold spmvNdP
      rw [decide_eq_true hax]
      simp only [assertP, if_true, ok_bind, hrem]
      rw [index_eq hax, ok_bind, if_pos hxl, ok_bind, if_pos hr, ok_bind, mapM_index (d0 := 0) _ hrlt, ok_bind, if_neg h0]
      show (expectP (stridesPos? shape) >>= _) = _
      rw [stridesPos?_eq hshape hno]
      simp only [expectP, ok_bind]
      rw [c1, ok_bind, spmvLoop_eq ha hai hidx (by rw [sufProds_length]; simp) hrlt hax hops _, c2, ok_bind, c4,
        ok_bind, c5]
      refine ndBuildP_ofEntries hno c7 c8 (by omega) ?_
      have h1 : L.length * shape.length ≤ a.data.length * a.shape.length :=
        Nat.mul_le_mul (by omega) (by simpa [shape] using hrlen)
      have := ha.length
      show 8 * ((L.length * shape.length : Nat) : Int) ≤ i64Max
      omega
    · unfold spmvNd
      simp only
      rw [if_neg (by simpa using hax), if_neg (by simpa using hx), hrem, if_neg (by simpa using hrne), if_neg h0]
      show (stridesPos? shape).bind _ = _
      rw [stridesPos?_eq hshape hno]
      simp only [Option.bind_some]
      rw [hops]
      simp only [Option.bind_some]
      rw [c3]
      simp only [Option.bind_some]
      rw [c5]

/-- C67: in ideal arithmetic, what the executed summation returns: at a remaining index the sum
of the array over everything that projects to it. -/
theorem reduce_sum_nd_ptr_correct [AddCommMonoid V] {dbg : Bool} {F : Nat} {sort : List (Nat × V) → List (Nat × V)}
    (hsort : IsSort sort) {a : CooNd V} (ha : a.WF) (hai : a.I64) {axes : List Nat} (hne : axes ≠ [])
    (hlt : ∀ p ∈ axes, p < a.shape.length) (hn : axes.Nodup) (hrest : restAxes a.shape.length axes ≠ [])
    (hno : NoOverflow ((restAxes a.shape.length axes).map fun d => a.shape.getD d 0))
    (hmap : 24 * (a.data.length : Int) ≤ i64Max) (hidx : 8 * (a.indices.length : Int) ≤ i64Max)
    (hF : 3 * a.data.length + 16 ≤ F) :
    ∃ r, reduceSumNdP dbg F sort a axes = .ok r ∧
      r.shape = (restAxes a.shape.length axes).map (fun d => a.shape.getD d 0) ∧ r.WF ∧ r.Sorted ∧
      ∀ y, r.val y =
        (((indicesOf a.shape).filter fun x => select (restAxes a.shape.length axes) x == y).map a.val).sum := by
  obtain ⟨r, h1, h2⟩ := reduce_sum_nd_ptr (dbg := dbg) hsort ha hai hne hlt hn hrest hno hmap hidx hF
  obtain ⟨r', g1, g2, g3, -, g5, g6⟩ := reduce_sum_correct hsort ha hai hne hlt hn hrest hno
  rw [h2] at g1
  cases g1
  exact ⟨r, h1, g2, g3, g5, g6⟩

/-- C67: in ideal arithmetic, what the executed product returns. -/
theorem spmv_nd_ptr_correct [Semiring V] [BEq V] [LawfulBEq V] {dbg : Bool} {F : Nat}
    {sort : List (Nat × V) → List (Nat × V)} (hsort : IsSort sort) {a : CooNd V} (ha : a.WF) (hai : a.I64) {axis : Nat}
    (hax : axis < a.shape.length) {x : List V} (hx : x.length = a.shape.getD axis 0) (hrest : 1 < a.shape.length)
    (hno : NoOverflow ((restAxes a.shape.length [axis]).map fun d => a.shape.getD d 0))
    (hmap : 24 * (a.data.length : Int) ≤ i64Max) (hidx : 8 * (a.indices.length : Int) ≤ i64Max)
    (hF : 3 * a.data.length + 16 ≤ F) :
    ∃ r, spmvNdP dbg F sort a axis x = .ok r ∧
      r.shape = (restAxes a.shape.length [axis]).map (fun d => a.shape.getD d 0) ∧ r.WF ∧ r.Sorted ∧
      ∀ y, r.val y =
        (((indicesOf a.shape).filter fun z => select (restAxes a.shape.length [axis]) z == y).map
          fun z => a.val z * x.getD (z.getD axis 0).toNat 0).sum := by
  obtain ⟨r, h1, h2⟩ := spmv_nd_ptr (dbg := dbg) hsort ha hai hax hx hrest hno hmap hidx hF
  obtain ⟨r', g1, g2, g3, -, g5, g6⟩ := spmv_nd_correct hsort ha hai hax hx hrest hno
  rw [h2] at g1
  cases g1
  exact ⟨r, h1, g2, g3, g5, g6⟩

/-! ### Rejected operands -/

/-- C67: operands of different shapes are rejected before any access, whatever they contain. -/
theorem nd_shape_mismatch_panics [Zero V] [Add V] [Mul V] [Neg V] [BEq V] (dbg : Bool) (F : Nat)
    (sort : List (Nat × V) → List (Nat × V)) {a b : CooNd V} (h : a.shape ≠ b.shape) :
    addNdP dbg F sort a b = .error .panic ∧ subNdP dbg F sort a b = .error .panic ∧
      hadamardNdP dbg F sort a b = .error .panic := by
  have hs : (a.shape == b.shape) = false := by simpa using h
  unfold addNdP subNdP unionNdP hadamardNdP
  rw [hs]
  cases a.shape.length == b.shape.length <;> exact ⟨rfl, rfl, rfl⟩

/-- C67: an empty, repeating, out-of-range or complete axis list is rejected. -/
theorem reduce_sum_nd_rejects [Zero V] [Add V] (dbg : Bool) (F : Nat) (sort : List (Nat × V) → List (Nat × V))
    (a : CooNd V) (axes : List Nat) (h : axes = [] ∨ (∃ p ∈ axes, ¬ p < a.shape.length) ∨ ¬ axes.Nodup ∨
      restAxes a.shape.length axes = []) : reduceSumNdP dbg F sort a axes = .error .panic := by
  unfold reduceSumNdP
  by_cases hne : axes = []
  · subst hne; rfl
  rw [show (!axes.isEmpty) = true by simpa using hne]
  cases hc : checkAxes a.shape.length axes (List.replicate a.shape.length false) with
  | none => rfl
  | some s' =>
    obtain ⟨h1, h2, h3⟩ := (checkAxes_iff a.shape.length axes).1 s' hc
    have hrem : (List.range a.shape.length).filter (fun d => !(s'.getD d false)) = restAxes a.shape.length axes := by
      unfold restAxes
      exact List.filter_congr fun d _ => by rw [h3]
    simp only [assertP, if_true, expectP, ok_bind]
    rw [hrem]
    rcases h with h | ⟨p, hp, hp'⟩ | h | h
    · exact absurd h hne
    · exact absurd (h1 p hp) hp'
    · exact absurd h2 h
    · rw [if_neg (by simp [h])]; rfl

/-- C67: a wrong axis, a vector of the wrong length and a 1-d array are rejected. -/
theorem spmv_nd_ptr_rejects [Zero V] [Add V] [Mul V] [BEq V] (dbg : Bool) (F : Nat)
    (sort : List (Nat × V) → List (Nat × V)) (a : CooNd V) (axis : Nat) (x : List V)
    (h : ¬ axis < a.shape.length ∨ x.length ≠ a.shape.getD axis 0 ∨ a.shape.length ≤ 1) :
    spmvNdP dbg F sort a axis x = .error .panic := by
  unfold spmvNdP
  by_cases h1 : axis < a.shape.length
  swap
  · rw [decide_eq_false h1]; rfl
  rw [decide_eq_true h1, index_eq h1]
  simp only [assertP, if_true, ok_bind]
  by_cases h2 : x.length = a.shape[axis]
  swap
  · rw [if_neg (by simpa using h2)]; rfl
  have h3 : a.shape.length ≤ 1 := by
    rcases h with h | h | h
    · exact absurd h1 h
    · rw [List.getD_eq_getElem _ _ h1] at h; exact absurd h2 h
    · exact h
  have h4 : a.shape.length = 1 := by omega
  have h5 : axis = 0 := by omega
  rw [if_pos (by simpa using h2), ok_bind, h4, h5]
  rfl

example : addNdP true 31 (fun l => l.mergeSort (fun a b => decide (a.1 ≤ b.1))) exN ⟨[2], [0], [7]⟩ = .error .panic :=
  (nd_shape_mismatch_panics true 31 _ (by decide)).1
example : spmvNdP false 31 (fun l => l.mergeSort (fun a b => decide (a.1 ≤ b.1))) exN 1 [1, 10] = .error .panic :=
  spmv_nd_ptr_rejects false 31 _ exN 1 [1, 10] (by decide)
example : reduceSumNdP false 31 (fun l => l.mergeSort (fun a b => decide (a.1 ≤ b.1))) exN [0, 0] = .error .panic :=
  reduce_sum_nd_rejects false 31 _ exN [0, 0] (by decide)

/-! ### Witnesses and the reserved key -/

example : ∃ r, addNdP true 31 (fun l => l.mergeSort (fun a b => decide (a.1 ≤ b.1))) exN exM = .ok r ∧
    r.val [1, 2] = 7 ∧ r.val [0, 1] = 0 ∧ r.val [1, 0] = 2 := by
  obtain ⟨r, h1, -, -, -, -, -, h2⟩ := add_nd_ptr (dbg := true) (F := 31) isSort_mergeSort exN_wf exM_wf
    (by unfold CooNd.I64; decide) (by unfold CooNd.I64; decide) rfl ex23_noOverflow
    (by unfold i64Max; decide) (by unfold i64Max; decide) (by decide)
  refine ⟨r, h1, ?_⟩
  rw [h2, h2, h2]
  decide

example : ∃ r, subNdP false 31 (fun l => l.mergeSort (fun a b => decide (a.1 ≤ b.1))) exN exM = .ok r ∧
    r.val [1, 2] = 7 ∧ r.val [0, 1] = 10 ∧ r.val [1, 0] = -2 := by
  obtain ⟨r, h1, -, -, -, -, -, h2⟩ := sub_nd_ptr (dbg := false) (F := 31) isSort_mergeSort exN_wf exM_wf
    (by unfold CooNd.I64; decide) (by unfold CooNd.I64; decide) rfl ex23_noOverflow
    (by unfold i64Max; decide) (by unfold i64Max; decide) (by decide)
  refine ⟨r, h1, ?_⟩
  rw [h2, h2, h2]
  decide

example : ∃ r, hadamardNdP true 25 (fun l => l.mergeSort (fun a b => decide (a.1 ≤ b.1))) exN exM = .ok r ∧
    r.val [1, 2] = 0 ∧ r.val [0, 1] = -25 := by
  obtain ⟨r, h1, -, -, -, -, -, h2⟩ := hadamard_nd_ptr (dbg := true) (F := 25) Int.zero_mul Int.mul_zero isSort_mergeSort
    exN_wf exM_wf (by unfold CooNd.I64; decide) (by unfold CooNd.I64; decide) rfl ex23_noOverflow
    (by unfold i64Max; decide) (by unfold i64Max; decide) (by unfold i64Max; decide) (by unfold i64Max; decide)
    (by decide) (by decide)
  refine ⟨r, h1, ?_⟩
  rw [h2, h2]
  decide

example : ∃ r, reduceSumNdP true 25 (fun l => l.mergeSort (fun a b => decide (a.1 ≤ b.1))) exN [0] = .ok r ∧
    r.shape = [3] ∧ r.val [1] = 5 ∧ r.val [2] = 7 := by
  obtain ⟨r, h1, h3, -, -, h2⟩ := reduce_sum_nd_ptr_correct (dbg := true) (F := 25) (axes := [0]) isSort_mergeSort exN_wf
    (by unfold CooNd.I64; decide) (by decide) (by decide) (by decide) (by decide)
    (noOverflow_of_pos (by decide) (by decide)) (by unfold i64Max; decide) (by unfold i64Max; decide) (by decide)
  refine ⟨r, h1, h3.trans (by decide), ?_⟩
  rw [h2, h2]
  decide

example : ∃ r, spmvNdP true 25 (fun l => l.mergeSort (fun a b => decide (a.1 ≤ b.1))) exN 1 [1, 10, 100] = .ok r ∧
    r.shape = [2] ∧ r.val [0] = 50 ∧ r.val [1] = 700 := by
  obtain ⟨r, h1, h3, -, -, h2⟩ := spmv_nd_ptr_correct (dbg := true) (F := 25) (axis := 1) (x := [1, 10, 100])
    isSort_mergeSort exN_wf (by unfold CooNd.I64; decide) (by decide) (by decide) (by decide)
    (noOverflow_of_pos (by decide) (by decide)) (by unfold i64Max; decide) (by unfold i64Max; decide) (by decide)
  refine ⟨r, h1, h3.trans (by decide), ?_⟩
  rw [h2, h2]
  decide

/-- C67: an array of exactly `2^64` cells with an entry in the last one: its key is the one
`UsizeF64Map` reserves for empty slots, and the debug build stops there.  The release build
loses the entry (`add_coond_last_cell_lost`). -/
theorem add_nd_last_cell_panics (F : Nat) (sort : List (Nat × Int) → List (Nat × Int)) :
    addNdP true F sort exBig exBigEmpty = .error .panic := by
  have hst : stridesPos? exBig.shape = some [2 ^ 32, 1] := by decide +kernel
  have hop : entryOpP true exBig [2 ^ 32, 1] (List.range 2) id 0 = .ok (some (2 ^ 64 - 1, 5)) := by rfl
  have hc : HMap.withCapacityP true 1 = .ok (HMap.withCapacity 1 : HMap Int) :=
    withCapacityP_eq (by unfold i64Max; decide)
  have hac : addUsize true 1 0 = .ok 1 := addUsize_eq (by unfold usizeMax; decide)
  unfold addNdP unionNdP
  rw [show (exBig.shape.length == exBigEmpty.shape.length) = true from rfl,
    show (exBig.shape == exBigEmpty.shape) = true by decide +kernel, hst]
  simp only [assertP, if_true, ok_bind, expectP]
  show (addUsize true 1 0 >>= _) = _
  rw [hac, ok_bind, hc, ok_bind]
  show ((accLoopP true F 1 (entryOpP true exBig [2 ^ 32, 1] (List.range 2) id) (HMap.withCapacity 1)) >>= _) = _
  have : accLoopP true F 1 (entryOpP true exBig [2 ^ 32, 1] (List.range 2) id) (HMap.withCapacity 1) = .error .panic := by
    unfold accLoopP
    rw [show List.range 1 = [0] from rfl, List.foldlM_cons, hop, ok_bind]
    rfl
  rw [this]
  rfl

end Lacuna
