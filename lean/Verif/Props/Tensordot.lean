import Verif.Props.Spmm
/-
C32 (N-D part) and C33 (tensordot): contraction of one axis with a dense array.
-/
namespace Lacuna
universe u
variable {V : Type u}

/-! ### N-D sparse times dense matrix -/

theorem inBounds_snoc {shape : List Nat} {x : List Int} (h : InBounds shape x) {k c : Nat} (hc : c < k) :
    InBounds (shape ++ [k]) (x ++ [(c : Int)]) := by
  induction h with
  | nil => exact .cons ⟨by omega, by omega⟩ .nil
  | cons h _ ih => exact .cons h ih

theorem rowMajor_snoc {shape : List Nat} {x : List Int} (h : InBounds shape x) (k c : Nat) :
    rowMajor (shape ++ [k]) (x ++ [(c : Int)]) = rowMajor (shape ++ [k]) (x ++ [0]) + c := by
  induction h with
  | nil => simp [rowMajor]
  | cons _ _ ih => simp only [List.cons_append, rowMajor, ih]; omega

theorem sufProds_last (shape : List Nat) (k : Nat) :
    (sufProds (shape ++ [k])).getD ((sufProds (shape ++ [k])).length - 1) 0 = 1 := by
  induction shape with
  | nil => simp [sufProds]
  | cons s ss ih =>
    rw [sufProds_length] at ih ⊢
    simp only [List.cons_append, sufProds, List.length_cons, List.length_append, List.length_nil] at ih ⊢
    rw [show ss.length + (0 + 1) + 1 - 1 = (ss.length + (0 + 1) - 1) + 1 by omega, List.getD_cons_succ]
    exact ih

/-- The linearisation loop over the leading axes of a longer shape. -/
theorem linAxes_prefix {indices : List Int} {base : Nat} {axes shape : List Nat} {x : List Int} {k : Nat}
    (hk : 0 < k) (hx : InBounds shape x)
    (hr : axes.map (fun d => indices[base + d]?) = x.map some) (lin : Nat)
    (hlin : lin + (shape ++ [k]).prod ≤ usizeMax + 1) (hfit : ∀ i ∈ x, i < 2 ^ 64) :
    linAxes indices base (axes.zip (sufProds (shape ++ [k]))) lin =
      some (lin + rowMajor (shape ++ [k]) (x ++ [0])) := by
  induction shape generalizing x axes lin with
  | nil =>
    cases hx
    cases axes with
    | nil => simp [linAxes, rowMajor]
    | cons _ _ => cases hr
  | cons s ss ih =>
    cases x with
    | nil => cases hx
    | cons i is =>
      cases axes with
      | nil => cases hr
      | cons d ds =>
        rw [inBounds_cons] at hx
        simp only [List.map_cons, List.cons.injEq] at hr
        have hlt := rowMajor_lt (inBounds_snoc hx.2 hk)
        have hc : i64ToUsize i = i.toNat := by
          unfold i64ToUsize
          rw [Int.emod_eq_of_lt hx.1.1 (by have := hfit i (by simp); omega)]
        have h1 : i.toNat + 1 ≤ s := by omega
        have h2 := Nat.mul_le_mul_right (ss ++ [k]).prod h1
        rw [Nat.add_mul, Nat.one_mul] at h2
        rw [List.cons_append, List.prod_cons] at hlin
        have hpos : 0 < (ss ++ [k]).prod := by omega
        simp only [List.cons_append, sufProds, List.zip_cons_cons, linAxes, hr.1, Option.bind_some, hc]
        rw [checkedMul_eq (by omega)]
        simp only [Option.bind_some]
        rw [checkedAdd_eq (by omega)]
        simp only [Option.bind_some]
        rw [ih hx.2 hr.2 (lin + i.toNat * (ss ++ [k]).prod) (by omega)
          (fun k hk => hfit k (by simp [hk])), rowMajor]
        congr 1; omega

theorem ndMmRow_eq [Zero V] [Mul V] [BEq V] {b : List V} {k n ax lin : Nat} (hb : b.length = n * k) (hax : ax < n)
    (hlin : lin + k ≤ usizeMax + 1) (av : V) :
    ndMmRow b k 1 av ax lin =
      some (((List.range k).map fun c => (lin + c, av * b.getD (ax * k + c) 0)).filter fun o => !(o.2 == 0)) := by
  unfold ndMmRow
  rw [mapM_option_map (g := fun c => if av * b.getD (ax * k + c) 0 == 0 then []
    else [(lin + c, av * b.getD (ax * k + c) 0)])]
  · rw [Option.map_some]
    congr 1
    generalize List.range k = l
    induction l with
    | nil => rfl
    | cons c l ih =>
      rw [List.map_cons, List.flatten_cons, ih, List.map_cons]
      cases h : (av * b.getD (ax * k + c) 0 == 0)
      · rw [List.filter_cons_of_pos (by simp only [h]; rfl)]
        rfl
      · rw [List.filter_cons_of_neg (by simp only [h]; decide)]
        rfl
  · intro c hc
    have hck := List.mem_range.1 hc
    have hlt : ax * k + c < b.length := by rw [hb]; exact mul_add_lt hax hck
    rw [List.getElem?_eq_getElem hlt, List.getD_eq_getElem _ _ hlt, Option.bind_some]
    split
    · rfl
    · rw [checkedMul_eq (by omega), Option.bind_some, checkedAdd_eq (by omega), Nat.mul_one]
      rfl

/-- The kept contributions of the N-D matrix product. -/
def ndMmEntries [Zero V] [Mul V] [BEq V] (a : CooNd V) (axis : Nat) (b : List V) (k : Nat) : List (List Int × V) :=
  (a.entries.flatMap fun e => (List.range k).map fun (c : Nat) =>
    (select (restAxes a.shape.length [axis]) e.1 ++ [(c : Int)],
      e.2 * b.getD ((e.1.getD axis 0).toNat * k + c) 0)).filter fun o => !(o.2 == 0)

theorem ndMmOps_eq [Zero V] [Mul V] [BEq V] {a : CooNd V} (ha : a.WF) (hai : a.I64) {axis : Nat}
    (hax : axis < a.shape.length) {b : List V} {k : Nat} (hk : 0 < k) (hb : b.length = a.shape.getD axis 0 * k)
    (hno : NoOverflow ((restAxes a.shape.length [axis]).map (fun d => a.shape.getD d 0) ++ [k])) :
    ndMmOps a ((restAxes a.shape.length [axis]).zip
        (sufProds ((restAxes a.shape.length [axis]).map (fun d => a.shape.getD d 0) ++ [k]))) axis b k 1 =
      some ((ndMmEntries a axis b k).map fun e =>
        (rowMajor ((restAxes a.shape.length [axis]).map (fun d => a.shape.getD d 0) ++ [k]) e.1, e.2)) := by
  have hrlt : ∀ d ∈ restAxes a.shape.length [axis], d < a.shape.length := by
    intro d hd
    have := (List.mem_filter.1 hd).1
    simpa using this
  have hprod := hno _ (List.suffix_refl _)
  unfold ndMmOps
  rw [mapM_option_map (g := fun e => ((List.range k).map fun (c : Nat) =>
      (rowMajor ((restAxes a.shape.length [axis]).map (fun d => a.shape.getD d 0) ++ [k])
        (select (restAxes a.shape.length [axis]) (a.coords e.2) ++ [(c : Int)]),
      e.1 * b.getD (((a.coords e.2).getD axis 0).toNat * k + c) 0)).filter fun o => !(o.2 == 0)) (by
    rintro ⟨v, p⟩ he
    have hp := (CooNd.entries_mem_idx he).1
    have hm : select (restAxes a.shape.length [axis]) (a.coords p) =
        (restAxes a.shape.length [axis]).map (a.coord p) :=
      List.map_congr_left fun d hd => a.coords_getD p d (hrlt d hd)
    have hin := ha.inBounds_axes hp hrlt
    have hlin : linAxes a.indices (p * a.shape.length) ((restAxes a.shape.length [axis]).zip
        (sufProds ((restAxes a.shape.length [axis]).map (fun d => a.shape.getD d 0) ++ [k]))) 0 =
        some (rowMajor ((restAxes a.shape.length [axis]).map (fun d => a.shape.getD d 0) ++ [k])
          ((restAxes a.shape.length [axis]).map (a.coord p) ++ [0])) := by
      rw [linAxes_prefix hk hin (by
          rw [List.map_map]
          exact List.map_congr_left fun d hd => ha.getElem? hp (hrlt d hd)) 0 (by omega) (by
          intro i hi'
          obtain ⟨d, _, rfl⟩ := List.mem_map.1 hi'
          have := hai.coord p d
          unfold i64Max at this; omega)]
      simp
    have hbd := ha.bounds p hp axis hax
    have hlt : (a.coord p axis).toNat < a.shape.getD axis 0 := by
      rw [List.getD_eq_getElem _ _ hax]; omega
    have hrow : rowMajor ((restAxes a.shape.length [axis]).map (fun d => a.shape.getD d 0) ++ [k])
        ((restAxes a.shape.length [axis]).map (a.coord p) ++ [0]) + k ≤ usizeMax + 1 := by
      have h1 := rowMajor_lt (inBounds_snoc hin (Nat.sub_lt hk Nat.one_pos))
      rw [rowMajor_snoc hin] at h1
      omega
    simp only
    rw [ha.getElem? hp hax, hlin, a.coords_getD p axis hax, hm]
    simp only [Option.bind_some]
    rw [i64ToUsize_of_nonneg hbd.1 (hai.coord p axis), ndMmRow_eq hb hlt hrow]
    simp only [rowMajor_snoc hin])]
  rw [Option.map_some]
  congr 1
  unfold ndMmEntries
  rw [CooNd.entries_zipIdx, List.filter_flatMap, List.flatMap_map, List.map_flatMap, ← List.flatMap_def]
  congr 1
  funext e
  rw [List.filter_map, List.filter_map, List.map_map]
  rfl

theorem sum_flatMap' [AddMonoid V] {α : Type*} (l : List α) (f : α → List V) :
    (l.flatMap f).sum = (l.map fun x => (f x).sum).sum := by
  rw [List.flatMap_def, List.sum_flatten, List.map_map]; rfl

theorem sum_map_filter [AddMonoid V] {α : Type*} (l : List α) (p : α → Bool) (f : α → V) :
    ((l.filter p).map f).sum = (l.map fun x => if p x then f x else 0).sum := by
  induction l with
  | nil => rfl
  | cons x l ih => by_cases h : p x = true <;> simp [h, ih]

/-- One output column of the contributions. -/
theorem sum_mmEntries [Semiring V] [BEq V] [LawfulBEq V] (a : CooNd V) (axis : Nat) (b : List V) (k : Nat)
    (y : List Int) (c : Nat) (hc : c < k) :
    (((ndMmEntries a axis b k).filter fun e => e.1 == y ++ [(c : Int)]).map Prod.snd).sum =
      (((a.entries.map fun e => (select (restAxes a.shape.length [axis]) e.1,
        e.2 * b.getD ((e.1.getD axis 0).toNat * k + c) 0)).filter fun e => e.1 == y).map Prod.snd).sum := by
  unfold ndMmEntries
  rw [sum_filter_ne_zero _ (fun z => z == y ++ [(c : Int)]), List.filter_flatMap, List.map_flatMap, sum_flatMap',
    List.filter_map, List.map_map, sum_map_filter]
  congr 1
  apply List.map_congr_left
  intro e _
  rw [List.filter_map, List.map_map]
  have hf : (List.range k).filter ((fun x : List Int × V => x.1 == y ++ [(c : Int)]) ∘ fun c : Nat =>
      (select (restAxes a.shape.length [axis]) e.1 ++ [(c : Int)], e.2 * b.getD ((e.1.getD axis 0).toNat * k + c) 0)) =
      if select (restAxes a.shape.length [axis]) e.1 = y then [c] else [] := by
    have hstep : (List.range k).filter ((fun x : List Int × V => x.1 == y ++ [(c : Int)]) ∘ fun c : Nat =>
        (select (restAxes a.shape.length [axis]) e.1 ++ [(c : Int)], e.2 * b.getD ((e.1.getD axis 0).toNat * k + c) 0)) =
        (List.range k).filter fun x => decide (select (restAxes a.shape.length [axis]) e.1 = y) && (x == c) := by
      apply List.filter_congr
      intro x _
      simp only [Function.comp]
      rw [Bool.eq_iff_iff, beq_iff_eq]
      constructor
      · intro h
        obtain ⟨h1, h2⟩ := List.append_inj' h rfl
        have : x = c := by simpa using h2
        simp [h1, this]
      · intro h
        have := Bool.and_eq_true_iff.1 h
        have h1 : select (restAxes a.shape.length [axis]) e.1 = y := by simpa using this.1
        have h2 : x = c := by simpa using this.2
        rw [h1, h2]
    rw [hstep]
    by_cases hs : select (restAxes a.shape.length [axis]) e.1 = y
    · simp only [hs, decide_true, Bool.true_and, if_true]
      rw [List.filter_beq, List.count_eq_one_of_mem List.nodup_range (List.mem_range.2 hc)]
      rfl
    · simp [hs]
  rw [hf]
  by_cases hs : select (restAxes a.shape.length [axis]) e.1 = y <;> simp [hs]

/-- Without algebraic laws: the call succeeds, the result is canonical, and stores at each
index the total of the non-zero products in storage order unless that total is zero. -/
theorem spmmNd_spec [Zero V] [Add V] [Mul V] [BEq V] {sort : List (Nat × V) → List (Nat × V)} (hsort : IsSort sort)
    {a : CooNd V} (ha : a.WF) (hai : a.I64) {axis : Nat} (hax : axis < a.shape.length) {b : List V} {k : Nat}
    (hk : 0 < k) (hb : b.length = a.shape.getD axis 0 * k) (hm : a.shape.getD axis 0 * k ≤ usizeMax)
    (hki : (k : Int) ≤ i64Max + 1)
    (hno : NoOverflow ((restAxes a.shape.length [axis]).map (fun d => a.shape.getD d 0) ++ [k])) :
    ∃ r, spmmNd sort a axis b k = some r ∧
      r.shape = (restAxes a.shape.length [axis]).map (fun d => a.shape.getD d 0) ++ [k] ∧
      r.WF ∧ r.I64 ∧ r.Sorted ∧ r.NoZeros ∧
      ∀ y v, (y, v) ∈ r.entries ↔ total (ndMmEntries a axis b k) y = some v ∧ (v == 0) = false := by
  have hrlt : ∀ d ∈ restAxes a.shape.length [axis], d < a.shape.length := by
    intro d hd
    have := (List.mem_filter.1 hd).1
    simpa using this
  have hEmem : ∀ e ∈ ndMmEntries a axis b k, ∃ e' ∈ a.entries, ∃ c, c < k ∧
      e.1 = select (restAxes a.shape.length [axis]) e'.1 ++ [(c : Int)] := by
    intro e he
    obtain ⟨e', he', h⟩ := List.mem_flatMap.1 (List.mem_filter.1 he).1
    obtain ⟨c, hc, rfl⟩ := List.mem_map.1 h
    exact ⟨e', he', c, List.mem_range.1 hc, rfl⟩
  have hEb : ∀ e ∈ ndMmEntries a axis b k,
      InBounds ((restAxes a.shape.length [axis]).map (fun d => a.shape.getD d 0) ++ [k]) e.1 := by
    intro e he
    obtain ⟨e', he', c, hc, h⟩ := hEmem e he
    rw [h]
    exact inBounds_snoc (select_inBounds ha hrlt e' he') hc
  have hEi : ∀ e ∈ ndMmEntries a axis b k, ∀ i ∈ e.1, i ≤ i64Max := by
    intro e he i hi
    obtain ⟨e', he', c, hc, h⟩ := hEmem e he
    rw [h] at hi
    rcases List.mem_append.1 hi with hi | hi
    · exact select_i64 hai _ e' he' i hi
    · have : i = (c : Int) := by simpa using hi
      omega
  obtain ⟨m, hm', L, l1, l2, l3, l4⟩ := collect_spec hsort hno hEb (wrapMul a.data.length (min k 8))
  have hLi := i64_of_total hEi l4
  have hshape : (restAxes a.shape.length [axis]).map (fun d => a.shape.getD d 0) ++ [k] ≠ [] := by simp
  have hrem : (List.range a.shape.length).filter (fun d => decide (d ≠ axis)) = restAxes a.shape.length [axis] := by
    unfold restAxes
    apply List.filter_congr
    intro d _
    by_cases h : d = axis <;> simp [h]
  have hsub : ∀ e ∈ L.filter (fun e => !(e.2 == 0)), e ∈ L := fun e he => (List.mem_filter.1 he).1
  have hrun : spmmNd sort a axis b k =
      some (CooNd.ofEntries ((restAxes a.shape.length [axis]).map (fun d => a.shape.getD d 0) ++ [k])
        (L.filter fun e => !(e.2 == 0))) := by
    unfold spmmNd
    simp only
    rw [if_neg (by simpa using hax), wrapMul_eq hm, if_neg (by simpa using hb), hrem]
    split
    · rename_i h0
      have h0 : a.data.length = 0 := by omega
      have hE0 : a.entries = [] := by rw [← List.length_eq_zero_iff, CooNd.entries_length, h0]
      have hL0 : L = [] := by
        rw [List.eq_nil_iff_forall_not_mem]
        intro e he
        obtain ⟨v', hv'⟩ := exists_of_total ((l4 e.1 e.2).1 he)
        simp [ndMmEntries, hE0] at hv'
      rw [hL0]; rfl
    · rw [stridesPos?_eq hshape hno]
      simp only [Option.bind_some]
      rw [sufProds_last, ndMmOps_eq ha hai hax hk hb hno]
      simp only [Option.bind_some]
      rw [hm']
      simp only [Option.bind_some]
      rw [l1, List.filter_map]
      have hp : ((fun e : Nat × V => !(e.2 == 0)) ∘ fun e : List Int × V =>
          (rowMajor ((restAxes a.shape.length [axis]).map (fun d => a.shape.getD d 0) ++ [k]) e.1, e.2))
          = fun e : List Int × V => !(e.2 == 0) := rfl
      rw [hp, ndBuild_eq (fun e he => l3 e (hsub e he)) (fun e he => hLi e (hsub e he))]
  have hent : (CooNd.ofEntries ((restAxes a.shape.length [axis]).map (fun d => a.shape.getD d 0) ++ [k])
      (L.filter fun e => !(e.2 == 0))).entries = L.filter fun e => !(e.2 == 0) :=
    CooNd.entries_ofEntries _ _ (fun e he => (l3 e (hsub e he)).length)
  refine ⟨_, hrun, rfl, CooNd.wf_of_inBounds hshape (fun e he => l3 e (hsub e he)),
    CooNd.i64_ofEntries (fun e he => hLi e (hsub e he)), ?_, ?_, ?_⟩
  · unfold CooNd.Sorted; rw [hent]; exact l2.sublist (List.filter_sublist.map _)
  · intro v hv
    obtain ⟨e, he, rfl⟩ := List.mem_map.1 hv
    have := (List.mem_filter.1 he).2
    simpa using this
  · intro x v
    rw [hent, List.mem_filter, l4]
    simp

/-- C32/C33, N-D: the requested axis is contracted with the rows of `b`; the columns of `b`
become the last axis of the result.  No explicit zero is stored. -/
theorem spmm_nd_correct [Semiring V] [BEq V] [LawfulBEq V] {sort : List (Nat × V) → List (Nat × V)}
    (hsort : IsSort sort) {a : CooNd V} (ha : a.WF) (hai : a.I64) {axis : Nat} (hax : axis < a.shape.length)
    {b : List V} {k : Nat} (hk : 0 < k) (hb : b.length = a.shape.getD axis 0 * k)
    (hm : a.shape.getD axis 0 * k ≤ usizeMax) (hki : (k : Int) ≤ i64Max + 1)
    (hno : NoOverflow ((restAxes a.shape.length [axis]).map (fun d => a.shape.getD d 0) ++ [k])) :
    ∃ r, spmmNd sort a axis b k = some r ∧
      r.shape = (restAxes a.shape.length [axis]).map (fun d => a.shape.getD d 0) ++ [k] ∧
      r.WF ∧ r.I64 ∧ r.Sorted ∧ r.NoZeros ∧
      ∀ y c, c < k → r.val (y ++ [(c : Int)]) =
        (((indicesOf a.shape).filter fun z => select (restAxes a.shape.length [axis]) z == y).map
          fun z => a.val z * b.getD ((z.getD axis 0).toNat * k + c) 0).sum := by
  obtain ⟨r, h1, h2, h3, h4, h5, h6, h7⟩ := spmmNd_spec hsort ha hai hax hk hb hm hki hno
  refine ⟨r, h1, h2, h3, h4, h5, h6, fun y c hc => ?_⟩
  rw [sum_filter_zero h5 (h7 (y ++ [(c : Int)])), total_getD, sum_mmEntries a axis b k y c hc,
    sum_select_mul ha _ (fun z => b.getD ((z.getD axis 0).toNat * k + c) 0) y]

/-- C32: a dense factor without columns gives an empty array of the right shape. -/
theorem spmm_nd_no_columns [Zero V] [Add V] [Mul V] [BEq V] (sort : List (Nat × V) → List (Nat × V)) (a : CooNd V)
    {axis : Nat} (hax : axis < a.shape.length) :
    spmmNd sort a axis [] 0 =
      some ⟨(restAxes a.shape.length [axis]).map (fun d => a.shape.getD d 0) ++ [0], [], []⟩ := by
  have hrem : (List.range a.shape.length).filter (fun d => decide (d ≠ axis)) = restAxes a.shape.length [axis] := by
    unfold restAxes
    apply List.filter_congr
    intro d _
    by_cases h : d = axis <;> simp [h]
  unfold spmmNd
  simp only
  rw [if_neg (by simpa using hax), if_neg (by simp [wrapMul]), hrem]
  exact if_pos (by simp)

/-! ### tensordot -/

theorem tensordotCols_eq {m : Nat} {rest : List Nat} {blen : Nat} (hpos : 0 < rest.prod)
    (hr : rest.prod ≤ usizeMax) (hm : m * rest.prod ≤ usizeMax) (hb : blen = m * rest.prod) :
    tensordotCols m blen (m :: rest) = some rest.prod := by
  have e1 : productChecked (m :: rest) = some (m * rest.prod) := by
    unfold productChecked
    have hle : m ≤ usizeMax := le_trans (Nat.le_mul_of_pos_right m hpos) hm
    rw [List.foldl_cons, Option.bind_some, checkedMul_eq (by omega), Nat.one_mul, productChecked_of_pos _ _ hpos hm]
  have e2 : productChecked rest = some rest.prod := by
    unfold productChecked
    rw [productChecked_of_pos _ _ hpos (by omega), Nat.one_mul]
  unfold tensordotCols
  rw [if_neg (by simp), e1, Option.bind_some, if_neg (by simpa using hb), if_neg (by simp)]
  exact e2

theorem isTensordot_of_matProd [Semiring V] {n m : Nat} {rest : List Nat} {val : Nat → Nat → V} {b y : List V}
    (h : IsMatProd n m rest.prod val b y) : IsTensordot n m rest val b y := by
  refine ⟨by rw [List.prod_cons]; exact h.1, fun i z hi hz => ?_⟩
  have := h.2 i (rowMajor rest z) hi (rowMajor_lt hz)
  simpa only [rowMajor, Int.toNat_natCast] using this

/-- C33, CSR: `tensordot(a, b, axes = ([1], [0]))` for a dense `b` of any rank. -/
theorem tensordot_csr_correct [CommSemiring V] {a : Csr V} (ha : a.WFU) {b : List V} {rest : List Nat}
    (hpos : 0 < rest.prod) (hr : rest.prod ≤ usizeMax) (hb : b.length = a.ncols * rest.prod)
    (hm : a.ncols * rest.prod ≤ usizeMax) (hn : a.nrows * rest.prod ≤ usizeMax) :
    ∃ y, tensordotCsr a b (a.ncols :: rest) = some y ∧ IsTensordot a.nrows a.ncols rest a.val b y := by
  obtain ⟨y, h1, h2⟩ := spmm_csr_correct ha b rest.prod hpos hb hm hn
  refine ⟨y, ?_, isTensordot_of_matProd h2⟩
  unfold tensordotCsr
  rw [tensordotCols_eq hpos hr hm hb]
  exact h1

/-- C33, CSC, every schedule. -/
theorem tensordot_csc_correct [CommSemiring V] {a : Csc V} (ha : a.WFU) {b : List V} {rest : List Nat}
    (hpos : 0 < rest.prod) (hr : rest.prod ≤ usizeMax) (hb : b.length = a.ncols * rest.prod)
    (hm : a.ncols * rest.prod ≤ usizeMax) (hn : a.nrows * rest.prod ≤ usizeMax) :
    (∃ y, TensordotCscRun a b (a.ncols :: rest) y) ∧
      ∀ y, TensordotCscRun a b (a.ncols :: rest) y → IsTensordot a.nrows a.ncols rest a.val b y := by
  obtain ⟨⟨y, hy⟩, h2⟩ := spmm_csc_correct ha b rest.prod hb hm hn
  have e := tensordotCols_eq hpos hr hm hb
  refine ⟨⟨y, _, e, hy⟩, ?_⟩
  rintro y ⟨k, hk, hy⟩
  rw [e] at hk
  obtain rfl := Option.some.inj hk
  exact isTensordot_of_matProd (h2 y hy)

/-- C33, COO, every schedule. -/
theorem tensordot_coo_correct [CommSemiring V] {a : Coo V} (ha : a.WF) (hi : a.I64) {b : List V} {rest : List Nat}
    (hpos : 0 < rest.prod) (hr : rest.prod ≤ usizeMax) (hb : b.length = a.ncols * rest.prod)
    (hm : a.ncols * rest.prod ≤ usizeMax) (hn : a.nrows * rest.prod ≤ usizeMax) :
    (∃ y, TensordotCooRun a b (a.ncols :: rest) y) ∧
      ∀ y, TensordotCooRun a b (a.ncols :: rest) y → IsTensordot a.nrows a.ncols rest a.val b y := by
  obtain ⟨⟨y, hy⟩, h2⟩ := spmm_coo_correct ha hi b rest.prod hb hm hn
  have e := tensordotCols_eq hpos hr hm hb
  refine ⟨⟨y, _, e, hy⟩, ?_⟩
  rintro y ⟨k, hk, hy⟩
  rw [e] at hk
  obtain rfl := Option.some.inj hk
  exact isTensordot_of_matProd (h2 y hy)

/-- C33, N-D: the result has the remaining axes of `a` and one trailing axis that enumerates
the remaining axes of `b` in row-major order. -/
theorem tensordot_nd_correct [Semiring V] [BEq V] [LawfulBEq V] {sort : List (Nat × V) → List (Nat × V)}
    (hsort : IsSort sort) {a : CooNd V} (ha : a.WF) (hai : a.I64) {axis : Nat} (hax : axis < a.shape.length)
    {b : List V} {rest : List Nat} (hpos : 0 < rest.prod) (hr : (rest.prod : Int) ≤ i64Max + 1)
    (hb : b.length = a.shape.getD axis 0 * rest.prod) (hm : a.shape.getD axis 0 * rest.prod ≤ usizeMax)
    (hno : NoOverflow ((restAxes a.shape.length [axis]).map (fun d => a.shape.getD d 0) ++ [rest.prod])) :
    ∃ r, tensordotNd sort a axis b (a.shape.getD axis 0 :: rest) = some r ∧
      r.shape = (restAxes a.shape.length [axis]).map (fun d => a.shape.getD d 0) ++ [rest.prod] ∧
      r.WF ∧ r.I64 ∧ r.Sorted ∧ r.NoZeros ∧
      ∀ y z, InBounds rest z → r.val (y ++ [(rowMajor rest z : Int)]) =
        (((indicesOf a.shape).filter fun x => select (restAxes a.shape.length [axis]) x == y).map fun x =>
          a.val x * b.getD (rowMajor (a.shape.getD axis 0 :: rest) (x.getD axis 0 :: z)) 0).sum := by
  obtain ⟨r, h1, h2, h3, h4, h5, h6, h7⟩ := spmm_nd_correct hsort ha hai hax hpos hb hm hr hno
  have hr' : rest.prod ≤ usizeMax := by
    have := hno [rest.prod] (List.suffix_append _ _)
    simpa using this
  refine ⟨r, ?_, h2, h3, h4, h5, h6, fun y z hz => ?_⟩
  · unfold tensordotNd
    rw [if_neg (by simpa using hax), tensordotCols_eq hpos hr' hm hb]
    exact h1
  · rw [h7 y _ (rowMajor_lt hz)]
    rfl

/-- C33: operands whose sizes do not fit are rejected by every format. -/
theorem tensordot_rejects [Zero V] [Add V] [Mul V] [BEq V] (sort : List (Nat × V) → List (Nat × V))
    (b y : List V) (bShape : List Nat) :
    (∀ a : Csr V, bShape.head? ≠ some a.ncols ∨ b.length ≠ bShape.prod → tensordotCsr a b bShape = none) ∧
    (∀ a : Csc V, bShape.head? ≠ some a.ncols ∨ b.length ≠ bShape.prod → ¬ TensordotCscRun a b bShape y) ∧
    (∀ a : Coo V, bShape.head? ≠ some a.ncols ∨ b.length ≠ bShape.prod → ¬ TensordotCooRun a b bShape y) ∧
    (∀ (a : CooNd V) axis, a.shape.length ≤ axis ∨ bShape.head? ≠ a.shape[axis]? ∨ b.length ≠ bShape.prod →
      tensordotNd sort a axis b bShape = none) := by
  have key : ∀ m, bShape.head? ≠ some m ∨ b.length ≠ bShape.prod → tensordotCols m b.length bShape = none := by
    intro m h
    unfold tensordotCols
    cases bShape with
    | nil => rfl
    | cons d ds =>
      rw [if_neg (by simp)]
      cases hp : productChecked (d :: ds) with
      | none => rfl
      | some p =>
        obtain ⟨rfl, _⟩ := productChecked_some hp
        rw [Option.bind_some]
        split
        · rfl
        · rename_i hl
          rw [if_pos]
          rcases h with h | h
          · simpa using h
          · exact absurd (not_not.1 hl) h
  refine ⟨fun a h => ?_, fun a h => ?_, fun a h => ?_, fun a axis h => ?_⟩
  · unfold tensordotCsr; rw [key _ h]; rfl
  · rintro ⟨k, hk, _⟩; rw [key _ h] at hk; cases hk
  · rintro ⟨k, hk, _⟩; rw [key _ h] at hk; cases hk
  · unfold tensordotNd
    split
    · rfl
    · rename_i hax
      have hax := not_not.1 hax
      rw [key]
      · rfl
      · rcases h with h | h | h
        · omega
        · left; rwa [List.getD_eq_getElem _ _ hax, ← List.getElem?_eq_getElem hax]
        · right; exact h

/-! ### Witnesses -/

theorem exA_fits : exA.comp.Fits := ⟨by decide, by decide⟩

-- [[5,0,6],[0,7,0]] · [[1,2],[3,4],[5,6]] = [[35,46],[21,28]]
example : ∃ y, spmmCsr exA [1, 2, 3, 4, 5, 6] 2 = some y ∧ IsMatProd 2 3 2 exA.val [1, 2, 3, 4, 5, 6] y :=
  spmm_csr_correct (Comp.WF.wfu exA_wf) _ 2 (by decide) rfl (by decide) (by decide)
example : ((List.range 3).map fun j => exA.val 0 j * [1, 2, 3, 4, 5, (6 : Int)].getD (j * 2 + 1) 0).sum = 46 := by
  decide
example : (∃ y, SpmmCscRun exC [1, 2, 3, 4] 2 y) ∧ ∀ y, SpmmCscRun exC [1, 2, 3, 4] 2 y →
    IsMatProd 3 2 2 exC.val [1, 2, 3, 4] y :=
  spmm_csc_correct (Comp.WF.wfu exC_wf) _ 2 rfl (by decide) (by decide)
example : (∃ y, SpmmAutoRun exA [1, 2, 3, 4, 5, 6] 2 y) ∧ ∀ y, SpmmAutoRun exA [1, 2, 3, 4, 5, 6] 2 y →
    IsMatProd 2 3 2 exA.val [1, 2, 3, 4, 5, 6] y :=
  spmm_auto_correct (Comp.WF.wfu exA_wf) exA_fits _ 2 rfl (by decide) (by decide)
example : (∃ y, SpmmAutoRun exA (List.replicate 384 1) 128 y) ∧ ∀ y, SpmmAutoRun exA (List.replicate 384 1) 128 y →
    IsMatProd 2 3 128 exA.val (List.replicate 384 1) y :=
  spmm_auto_correct (Comp.WF.wfu exA_wf) exA_fits _ 128 List.length_replicate (by decide) (by decide)
example : ∃ y, tensordotCsr exA (List.replicate 12 2) [3, 2, 2] = some y ∧
    IsTensordot 2 3 [2, 2] exA.val (List.replicate 12 2) y :=
  tensordot_csr_correct (Comp.WF.wfu exA_wf) (by decide) (by decide) rfl (by decide) (by decide)
example : (∃ y, TensordotCscRun exC (List.replicate 8 2) [2, 2, 2] y) ∧
    ∀ y, TensordotCscRun exC (List.replicate 8 2) [2, 2, 2] y →
      IsTensordot 3 2 [2, 2] exC.val (List.replicate 8 2) y :=
  tensordot_csc_correct (a := exC) (Comp.WF.wfu exC_wf) (by decide) (by decide) rfl (by decide) (by decide)
example : ∃ r, tensordotNd (fun l => l.mergeSort (fun a b => decide (a.1 ≤ b.1))) exN 1
      [1, 2, 3, 4, 5, 6] [3, 2] = some r ∧ r.shape = [2, 2] ∧ r.val [1, 1] = 42 ∧ r.WF := by
  obtain ⟨r, h1, h2, h3, -, -, -, h7⟩ := tensordot_nd_correct (b := [1, 2, 3, 4, 5, (6 : Int)]) (rest := [2])
    isSort_mergeSort exN_wf (by unfold CooNd.I64; decide) (axis := 1) (by decide) (by decide) (by decide) rfl
    (by decide) (noOverflow_of_pos (by decide) (by decide))
  exact ⟨r, h1, h2, (h7 [1] [1] (.cons ⟨by decide, by decide⟩ .nil)).trans (by decide), h3⟩

/-! ### Where the code departs from the property -/

/-- C32, negative part: with a dense factor without columns the CSR kernel panics
(`par_chunks_mut(0)`), while the other kernels return the empty product. -/
theorem spmm_csr_no_columns_panics [Zero V] [Add V] [Mul V] (a : Csr V) :
    spmmCsr a [] 0 = none ∧ SpmmAutoRun a [] 0 [] := by
  constructor
  · unfold spmmCsr
    split
    · rfl
    · rfl
  · refine ⟨rfl, ?_⟩
    rw [if_pos (by simp)]
    simp [wrapMul]

/-- C33, negative part: hence a trailing dimension 0 makes `tensordot` of every CSR matrix panic, whereas
CSC and COO return the empty product (unless the product of the trailing dimensions overflows before
the 0 is met, which makes all three panic). -/
theorem tensordot_csr_zero_dim_panics [Zero V] [Add V] [Mul V] {rest : List Nat} (hz : rest.prod = 0) :
    (∀ (a : Csr V) (b : List V), tensordotCsr a b (a.ncols :: rest) = none) ∧
    (productChecked rest = some 0 → ∀ n : Nat, productChecked (n :: rest) = some 0 →
      (∀ (a : Csc V) (y : List V), a.ncols = n → (TensordotCscRun a [] (n :: rest) y ↔ y = [])) ∧
      (∀ (a : Coo V) (y : List V), a.ncols = n → (TensordotCooRun a [] (n :: rest) y ↔ y = []))) := by
  constructor
  · intro a b
    unfold tensordotCsr
    cases hk : tensordotCols a.ncols b.length (a.ncols :: rest) with
    | none => rfl
    | some k =>
      have h0 : k = 0 := by
        unfold tensordotCols at hk
        rw [if_neg (by simp)] at hk
        cases hp : productChecked (a.ncols :: rest) with
        | none => rw [hp] at hk; cases hk
        | some e =>
          rw [hp] at hk
          simp only [Option.bind_some] at hk
          split at hk
          · cases hk
          · split at hk
            · cases hk
            · have := (productChecked_some hk).1
              simpa [hz] using this
      subst h0
      show spmmCsr a b 0 = none
      unfold spmmCsr
      split
      · rfl
      · rfl
  · intro hp n hn
    have e : tensordotCols n 0 (n :: rest) = some 0 := by
      unfold tensordotCols
      simp [hn, hp]
    constructor
    · rintro a y rfl
      constructor
      · rintro ⟨k, hk, -, h⟩
        have hk : tensordotCols a.ncols 0 (a.ncols :: rest) = some k := hk
        rw [e] at hk
        obtain rfl := Option.some.inj hk
        rw [if_pos (by simp)] at h
        simpa [wrapMul] using h
      · rintro rfl
        exact ⟨0, e, by simp [wrapMul], by rw [if_pos (by simp)]; simp [wrapMul]⟩
    · rintro a y rfl
      constructor
      · rintro ⟨k, hk, -, h⟩
        have hk : tensordotCols a.ncols 0 (a.ncols :: rest) = some k := hk
        rw [e] at hk
        obtain rfl := Option.some.inj hk
        rw [if_pos (by simp)] at h
        simpa [wrapMul] using h
      · rintro rfl
        exact ⟨0, e, by simp [wrapMul], by rw [if_pos (by simp)]; simp [wrapMul]⟩

example : tensordotCsr exA [] [3, 0] = none ∧
    ∀ y, TensordotCscRun ⟨2, 3, [0, 1, 2, 3], [0, 1, 0], [5, 7, (6 : Int)]⟩ [] [3, 0] y ↔ y = [] :=
  ⟨(tensordot_csr_zero_dim_panics (V := Int) (rest := [0]) rfl).1 exA [], fun y =>
    ((tensordot_csr_zero_dim_panics (V := Int) (rest := [0]) rfl).2 (by decide) 3 (by decide)).1 _ y rfl⟩

/-- A 1 × 2^63 matrix with one stored element. -/
def exWide : Csr Int := ⟨1, 9223372036854775808, [0, 1], [7], [1]⟩
theorem exWide_wf : exWide.WF :=
  ((csr_fromParts_iff 1 9223372036854775808 [0, 1] [7] [(1 : Int)] (by decide) exWide).1 rfl).2.2

/-- C32, negative part: the length check computes `ncols * k` with wrapping arithmetic.  For
2^63 columns and `k = 2` an empty dense factor passes, and the kernel reads outside it. -/
theorem spmm_length_check_wraps :
    exWide.WF ∧ ([] : List Int).length = wrapMul exWide.ncols 2 ∧ ([] : List Int).length ≠ exWide.ncols * 2 ∧
      spmmRow ([] : List Int) 2 (exWide.comp.row 0) [0, 0] = none :=
  ⟨exWide_wf, by decide +kernel, by decide +kernel, by decide +kernel⟩

/-- C33, negative part: for a dense operand of rank 3 or more the N-D kernel (whose result the Python
wrapper returns without reshaping) collapses the trailing axes: the result has as many axes as the sparse
operand, although `tensordot` has one axis less plus those of `rest`. -/
theorem tensordot_nd_collapses_axes [Semiring V] [BEq V] [LawfulBEq V] {sort : List (Nat × V) → List (Nat × V)}
    (hsort : IsSort sort) {a : CooNd V} (ha : a.WF) (hai : a.I64) {axis : Nat} (hax : axis < a.shape.length)
    {b : List V} {rest : List Nat} (hpos : 0 < rest.prod) (hr : (rest.prod : Int) ≤ i64Max + 1)
    (hb : b.length = a.shape.getD axis 0 * rest.prod) (hm : a.shape.getD axis 0 * rest.prod ≤ usizeMax)
    (hno : NoOverflow ((restAxes a.shape.length [axis]).map (fun d => a.shape.getD d 0) ++ [rest.prod]))
    (h2 : 2 ≤ rest.length) :
    ∃ r, tensordotNd sort a axis b (a.shape.getD axis 0 :: rest) = some r ∧
      r.shape.length < ((restAxes a.shape.length [axis]).map (fun d => a.shape.getD d 0) ++ rest).length := by
  obtain ⟨r, h, hs, -⟩ := tensordot_nd_correct hsort ha hai hax hpos hr hb hm hno
  refine ⟨r, h, ?_⟩
  rw [hs]
  simp only [List.length_append, List.length_map, List.length_singleton]
  omega

/-- `tensordot` of shapes `(2, 3)` and `(3, 2, 2)` has shape `(2, 4)` instead of `(2, 2, 2)`. -/
example : ∃ r, tensordotNd (fun l => l.mergeSort (fun a b => decide (a.1 ≤ b.1))) exN 1
      (List.replicate 12 1) [3, 2, 2] = some r ∧ r.shape = [2, 4] ∧ r.shape.length < [2, 2, 2].length := by
  have hp : 0 < ([2, 2] : List Nat).prod := by decide
  obtain ⟨r, h1, h2, -⟩ := tensordot_nd_correct (b := List.replicate 12 (1 : Int)) (rest := [2, 2])
    isSort_mergeSort exN_wf (by unfold CooNd.I64; decide) (axis := 1) (by decide) hp (by decide) rfl
    (by decide) (noOverflow_of_pos (by decide) (by decide))
  obtain ⟨r', h1', h3⟩ := tensordot_nd_collapses_axes (b := List.replicate 12 (1 : Int)) (rest := [2, 2])
    isSort_mergeSort exN_wf (by unfold CooNd.I64; decide) (axis := 1) (by decide) hp (by decide) rfl
    (by decide) (noOverflow_of_pos (by decide) (by decide)) (by decide)
  obtain rfl := Option.some.inj (h1.symm.trans h1')
  exact ⟨r, h1, h2, h3⟩

end Lacuna
