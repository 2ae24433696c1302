import Verif.Props.PyReduce
import Verif.Props.NdShape
import Verif.Props.Sums
import Verif.Props.Logic
/-
C54: `sum` and `mean` of an N-D COO array in the Python layer: axis argument, `keepdims`.
-/
namespace Lacuna
universe u w
variable {V : Type u} {W : Type w}

/-! ### Indices -/

theorem flatMap_ite_filter {α : Type u} {β : Type w} (l : List α) (S : α → Bool) (g : α → β) :
    (l.flatMap fun d => if S d then [] else [g d]) = (l.filter fun d => !(S d)).map g := by
  induction l with
  | nil => rfl
  | cons d l ih =>
    rw [List.flatMap_cons, ih]
    cases h : S d <;> simp [h]

theorem reducedIndex_false (n : Nat) (S : Nat → Bool) (x : List Int) :
    reducedIndex n S false x = select ((List.range n).filter fun d => !(S d)) x := by
  unfold reducedIndex select
  exact flatMap_ite_filter _ S fun d => x.getD d 0

theorem reducedIndex_true (n : Nat) (S : Nat → Bool) (x : List Int) :
    reducedIndex n S true x = (List.range n).map fun d => if S d then 0 else x.getD d 0 := by
  unfold reducedIndex
  rw [← List.flatMap_singleton' ((List.range n).map _), List.flatMap_map]
  apply List.flatMap_congr
  intro d _
  cases S d <;> rfl

theorem reducedShape_false (shape : List Nat) (S : Nat → Bool) :
    reducedShape shape S false = ((List.range shape.length).filter fun d => !(S d)).map fun d => shape.getD d 0 := by
  unfold reducedShape
  exact flatMap_ite_filter _ S fun d => shape.getD d 0

theorem reducedShape_true (shape : List Nat) (S : Nat → Bool) :
    reducedShape shape S true = (List.range shape.length).map fun d => if S d then 1 else shape.getD d 0 := by
  unfold reducedShape
  rw [← List.flatMap_singleton' ((List.range shape.length).map _), List.flatMap_map]
  apply List.flatMap_congr
  intro d _
  cases S d <;> rfl

/-- Reinsert zeros on the reduced axes. -/
def expandIndex (n : Nat) (S : Nat → Bool) (y : List Int) : List Int :=
  (List.range n).map fun d => if S d then 0 else y.getD (((List.range n).filter fun d => !(S d)).idxOf d) 0

theorem getD_map_idxOf {β : Type w} (rem : List Nat) (g : Nat → β) (dflt : β) {d : Nat} (h : d ∈ rem) :
    (rem.map g).getD (rem.idxOf d) dflt = g d := by
  have hlt : rem.idxOf d < rem.length := List.idxOf_lt_length_iff.2 h
  rw [List.getD_eq_getElem _ _ (by simpa using hlt), List.getElem_map, List.getElem_idxOf hlt]

theorem expand_select (n : Nat) (S : Nat → Bool) (x : List Int) :
    expandIndex n S (reducedIndex n S false x) = reducedIndex n S true x := by
  rw [reducedIndex_false, reducedIndex_true]
  unfold expandIndex
  apply List.map_congr_left
  intro d hd
  cases hs : S d with
  | true => rfl
  | false =>
    simp only [Bool.false_eq_true, if_false]
    exact getD_map_idxOf _ (fun d => x.getD d 0) 0 (List.mem_filter.2 ⟨hd, by simp [hs]⟩)

theorem expand_inj {n : Nat} {S : Nat → Bool} {y z : List Int}
    (hy : y.length = ((List.range n).filter fun d => !(S d)).length)
    (hz : z.length = ((List.range n).filter fun d => !(S d)).length)
    (h : expandIndex n S y = expandIndex n S z) : y = z := by
  apply List.ext_getElem (hy.trans hz.symm)
  intro q h1 h2
  have hq : q < ((List.range n).filter fun d => !(S d)).length := hy ▸ h1
  have hm := List.getElem_mem hq
  have hi : ((List.range n).filter fun d => !(S d)).idxOf (((List.range n).filter fun d => !(S d))[q]) = q :=
    (List.nodup_range.filter _).idxOf_getElem q hq
  generalize ((List.range n).filter fun d => !(S d))[q] = d at hm hi
  obtain ⟨hd, hs⟩ := List.mem_filter.1 hm
  have hd' : d < n := List.mem_range.1 hd
  have := congrArg (fun l => l.getD d 0) h
  unfold expandIndex at this
  have hs' : S d = false := by simpa using hs
  simp only [List.getD_eq_getElem?_getD, List.getElem?_map, List.getElem?_range hd', Option.map_some,
    Option.getD_some, hs', hi, Bool.false_eq_true, if_false] at this
  simpa [h1, h2] using this

theorem reducedIndex_false_length (n : Nat) (S : Nat → Bool) (x : List Int) :
    (reducedIndex n S false x).length = ((List.range n).filter fun d => !(S d)).length := by
  rw [reducedIndex_false]; simp [select]

/-! ### `_coond_with_keepdims` -/

section
variable {n : Nat} {S : Nat → Bool} {axes : List Nat}

theorem coondKeepdims_eq (hS : ∀ d, d < n → axes.contains d = S d)
    (hrem : ((List.range n).filter fun d => !(S d)) ≠ []) {r : CooNd V}
    (hr : r.shape.length = ((List.range n).filter fun d => !(S d)).length) :
    coondKeepdims n r axes = CooNd.ofEntries
      ((List.range n).map fun d => if S d then 1 else r.shape.getD (((List.range n).filter fun d => !(S d)).idxOf d) 0)
      (r.entries.map fun e => (expandIndex n S e.1, e.2)) := by
  have hf : ((List.range n).filter fun d => !(axes.contains d)) = (List.range n).filter fun d => !(S d) :=
    List.filter_congr fun d hd => by rw [hS d (List.mem_range.1 hd)]
  unfold coondKeepdims
  simp only [hf]
  rw [if_neg (by simpa [List.length_eq_zero_iff] using hrem)]
  unfold CooNd.ofEntries
  congr 1
  · apply List.map_congr_left
    intro d hd
    rw [hS d (List.mem_range.1 hd)]
  · rw [List.flatMap_map]
    rw [show (r.entries.flatMap fun a => expandIndex n S a.1) =
        (r.entries.map Prod.fst).flatMap fun x => expandIndex n S x from by rw [List.flatMap_map],
      CooNd.entries_fst, List.flatMap_map]
    apply List.flatMap_congr
    intro k hk
    unfold expandIndex
    apply List.map_congr_left
    intro d hd
    cases hs : S d with
    | true =>
      rw [if_neg]
      · simp
      · simp [hs]
    | false =>
      have hm : d ∈ (List.range n).filter fun d => !(S d) := List.mem_filter.2 ⟨hd, by simp [hs]⟩
      have hlt : ((List.range n).filter fun d => !(S d)).idxOf d < r.shape.length := by
        rw [hr]; exact List.idxOf_lt_length_iff.2 hm
      rw [if_pos (by simpa using hm)]
      simp only [Bool.false_eq_true, if_false]
      rw [CooNd.coords_getD _ _ _ hlt, ← hr]
      rfl
  · rw [List.map_map]
    exact r.entries_snd.symm

theorem coondKeepdims_entries (hS : ∀ d, d < n → axes.contains d = S d)
    (hrem : ((List.range n).filter fun d => !(S d)) ≠ []) {r : CooNd V}
    (hr : r.shape.length = ((List.range n).filter fun d => !(S d)).length) :
    (coondKeepdims n r axes).entries = r.entries.map fun e => (expandIndex n S e.1, e.2) := by
  rw [coondKeepdims_eq hS hrem hr, CooNd.entries_ofEntries]
  intro e he
  obtain ⟨e', _, rfl⟩ := List.mem_map.1 he
  simp [expandIndex]

theorem coondKeepdims_wf {shape : List Nat} (hn : shape.length = n) (hS : ∀ d, d < n → axes.contains d = S d)
    (hrem : ((List.range n).filter fun d => !(S d)) ≠ []) {r : CooNd V}
    (hr : r.shape = reducedShape shape S false) (hw : r.WF) :
    (coondKeepdims n r axes).shape = reducedShape shape S true ∧ (coondKeepdims n r axes).WF := by
  subst hn
  have hl : r.shape.length = ((List.range shape.length).filter fun d => !(S d)).length := by
    rw [hr, reducedShape_false]; simp
  have hsh : (List.range shape.length).map (fun d => if S d then 1 else
      r.shape.getD (((List.range shape.length).filter fun d => !(S d)).idxOf d) 0) = reducedShape shape S true := by
    rw [reducedShape_true]
    apply List.map_congr_left
    intro d hd
    cases hs : S d with
    | true => rfl
    | false =>
      simp only [Bool.false_eq_true, if_false]
      rw [hr, reducedShape_false]
      exact getD_map_idxOf _ (fun d => shape.getD d 0) 0 (List.mem_filter.2 ⟨hd, by simp [hs]⟩)
  rw [coondKeepdims_eq hS hrem hl]
  refine ⟨hsh, ?_⟩
  rw [hsh]
  have hne : shape.length ≠ 0 := by
    intro h0
    rw [h0] at hrem
    exact hrem rfl
  apply CooNd.wf_ofEntries
  · rw [reducedShape_true]
    intro h0
    exact hne (by simpa using congrArg List.length h0)
  · intro e he
    obtain ⟨e', _, rfl⟩ := List.mem_map.1 he
    simp [expandIndex, reducedShape_true]
  · intro e he d hd
    obtain ⟨e', he', rfl⟩ := List.mem_map.1 he
    have hd' : d < shape.length := by simpa [reducedShape_true] using hd
    have e1 : (reducedShape shape S true)[d] = if S d then 1 else shape.getD d 0 := by
      simp [reducedShape_true]
    have e2 : (expandIndex shape.length S e'.1).getD d 0 =
        if S d then 0 else e'.1.getD (((List.range shape.length).filter fun d => !(S d)).idxOf d) 0 := by
      unfold expandIndex
      rw [List.getD_eq_getElem _ _ (by simpa using hd')]
      simp
    rw [e1]
    show 0 ≤ (expandIndex shape.length S e'.1).getD d 0 ∧ (expandIndex shape.length S e'.1).getD d 0 < _
    rw [e2]
    cases hs : S d with
    | true => simp
    | false =>
      simp only [Bool.false_eq_true, if_false]
      have hm : d ∈ (List.range shape.length).filter fun d => !(S d) :=
        List.mem_filter.2 ⟨List.mem_range.2 hd', by simp [hs]⟩
      have hlt : ((List.range shape.length).filter fun d => !(S d)).idxOf d < r.shape.length := by
        rw [hl]; exact List.idxOf_lt_length_iff.2 hm
      have hb := hw.entry_bounds e' he' _ hlt
      have hg : r.shape[((List.range shape.length).filter fun d => !(S d)).idxOf d] = shape.getD d 0 := by
        rw [← List.getD_eq_getElem _ 0 hlt, hr, reducedShape_false]
        exact getD_map_idxOf _ (fun d => shape.getD d 0) 0 hm
      rw [hg] at hb
      exact hb

/-- The cells of the array with the reduced axes kept are those of the reduced array. -/
theorem coondKeepdims_val [AddCommMonoid V] {shape : List Nat} (hn : shape.length = n)
    (hS : ∀ d, d < n → axes.contains d = S d)
    (hrem : ((List.range n).filter fun d => !(S d)) ≠ []) {r : CooNd V}
    (hr : r.shape = reducedShape shape S false) {f : List Int → V} (F : List V → V) (hF : F [] = 0)
    (hv : ∀ y, r.val y = F (fibre shape S false f y)) (y : List Int) :
    (coondKeepdims n r axes).val y = F (fibre shape S true f y) := by
  subst hn
  have hl : r.shape.length = ((List.range shape.length).filter fun d => !(S d)).length := by
    rw [hr, reducedShape_false]; simp
  unfold CooNd.val
  rw [coondKeepdims_entries hS hrem hl, List.filter_map, List.map_map]
  by_cases hy : ∃ z, z.length = ((List.range shape.length).filter fun d => !(S d)).length ∧
      expandIndex shape.length S z = y
  · obtain ⟨z, hz, rfl⟩ := hy
    have h1 : (r.entries.filter ((fun e : List Int × V => e.1 == expandIndex shape.length S z) ∘
        fun e => (expandIndex shape.length S e.1, e.2))) = r.entries.filter fun e => e.1 == z := by
      apply List.filter_congr
      intro e he
      have he' : e.1.length = ((List.range shape.length).filter fun d => !(S d)).length := by
        rw [← hl]; exact CooNd.entries_fst_length r e he
      by_cases h : e.1 = z
      · simp [h]
      · have : ¬ expandIndex shape.length S e.1 = expandIndex shape.length S z :=
          fun hc => h (expand_inj he' hz hc)
        simp [h, this]
    have h2 : fibre shape S true f (expandIndex shape.length S z) = fibre shape S false f z := by
      unfold fibre
      congr 1
      apply List.filter_congr
      intro x _
      rw [← expand_select]
      by_cases h : reducedIndex shape.length S false x = z
      · simp [h]
      · have : ¬ expandIndex shape.length S (reducedIndex shape.length S false x) = expandIndex shape.length S z :=
          fun hc => h (expand_inj (reducedIndex_false_length _ _ _) hz hc)
        simp [h, this]
    rw [h1, h2, ← hv z]
    rfl
  · have h1 : (r.entries.filter ((fun e : List Int × V => e.1 == y) ∘
        fun e => (expandIndex shape.length S e.1, e.2))) = [] := by
      rw [List.filter_eq_nil_iff]
      intro e he hc
      refine hy ⟨e.1, ?_, by simpa using hc⟩
      rw [← hl]; exact CooNd.entries_fst_length r e he
    have h2 : fibre shape S true f y = [] := by
      unfold fibre
      rw [List.map_eq_nil_iff, List.filter_eq_nil_iff]
      intro x _ hc
      rw [← expand_select] at hc
      exact hy ⟨_, reducedIndex_false_length _ _ x, by simpa using hc⟩
    rw [h1, h2, hF]
    rfl

end

/-! ### The number of elements of a fibre -/

theorem range_succ_flatMap {α : Type w} (n : Nat) (g : Nat → List α) :
    (List.range (n + 1)).flatMap g = g 0 ++ (List.range n).flatMap fun d => g (d + 1) := by
  rw [List.range_succ_eq_map, List.flatMap_cons, List.flatMap_map]

theorem reducedIndex_cons (n : Nat) (S : Nat → Bool) (i : Int) (x : List Int) :
    reducedIndex (n + 1) S false (i :: x) =
      (if S 0 then [] else [i]) ++ reducedIndex n (fun d => S (d + 1)) false x := by
  unfold reducedIndex
  rw [range_succ_flatMap]
  simp

theorem coveredDims_cons (s : Nat) (ss : List Nat) (S : Nat → Bool) :
    ((List.range (s :: ss).length).filter S).map (fun d => (s :: ss).getD d 0) =
      (if S 0 then [s] else []) ++
        ((List.range ss.length).filter fun d => S (d + 1)).map fun d => ss.getD d 0 := by
  rw [List.length_cons, List.range_succ_eq_map, List.filter_cons, List.filter_map]
  cases h : S 0 <;> simp [Function.comp_def]

theorem sum_range_single {n k : Nat} (hk : k < n) (g : Nat → Nat) :
    ((List.range n).map fun i => if i = k then g i else 0).sum = g k := by
  induction n with
  | zero => omega
  | succ n ih =>
    rw [List.range_succ, List.map_append, List.sum_append]
    by_cases h : k = n
    · subst h
      rw [List.sum_eq_zero]
      · simp
      · intro v hv
        obtain ⟨i, hi, rfl⟩ := List.mem_map.1 hv
        have := List.mem_range.1 hi
        rw [if_neg (by omega)]
    · rw [ih (by omega)]
      simp [Ne.symm h]

/-- Every fibre is empty or has as many elements as the product of the reduced extents. -/
theorem fibre_length (shape : List Nat) (S : Nat → Bool) (f : List Int → V) (y : List Int) :
    (fibre shape S false f y).length = 0 ∨
    (fibre shape S false f y).length =
      (((List.range shape.length).filter S).map fun d => shape.getD d 0).prod := by
  have key : ((indicesOf shape).filter fun x => reducedIndex shape.length S false x == y).length = 0 ∨
      ((indicesOf shape).filter fun x => reducedIndex shape.length S false x == y).length =
        (((List.range shape.length).filter S).map fun d => shape.getD d 0).prod := by
    induction shape generalizing S y with
    | nil =>
      by_cases h : ([] : List Int) = y
      · right; subst h; rfl
      · left
        rw [List.length_eq_zero_iff, List.filter_eq_nil_iff]
        intro x _ hc
        exact h (by simpa [reducedIndex] using hc)
    | cons s ss ih =>
      have hlen : ((indicesOf (s :: ss)).filter fun x => reducedIndex (s :: ss).length S false x == y).length =
          ((List.range s).map fun (i : Nat) => ((indicesOf ss).filter fun x =>
            ((if S 0 then [] else [(i : Int)]) ++ reducedIndex ss.length (fun d => S (d + 1)) false x) == y).length).sum := by
        rw [indicesOf, List.filter_flatMap, List.length_flatMap]
        congr 1
        apply List.map_congr_left
        intro i _
        rw [List.filter_map, List.length_map]
        congr 1
        apply List.filter_congr
        intro x _
        simp only [Function.comp_apply, List.length_cons]
        rw [reducedIndex_cons]
        rfl
      rw [hlen, coveredDims_cons]
      cases h0 : S 0 with
      | true =>
        simp only [if_true, List.nil_append, List.singleton_append, List.prod_cons, List.map_const', List.sum_replicate,
          List.length_range, smul_eq_mul]
        rcases ih (fun d => S (d + 1)) y with h | h
        · left; rw [h, Nat.mul_zero]
        · right; rw [h]
      | false =>
        simp only [Bool.false_eq_true, if_false, List.nil_append, List.singleton_append]
        cases y with
        | nil =>
          left
          simp
        | cons j y =>
          by_cases hj : ∃ k, k < s ∧ ((k : Nat) : Int) = j
          · obtain ⟨k, hk, rfl⟩ := hj
            have : ((List.range s).map fun (i : Nat) => ((indicesOf ss).filter fun x =>
                (((i : Int) :: reducedIndex ss.length (fun d => S (d + 1)) false x) == ((k : Int) :: y))).length).sum =
                ((indicesOf ss).filter fun x => reducedIndex ss.length (fun d => S (d + 1)) false x == y).length := by
              rw [← sum_range_single hk (fun _ => ((indicesOf ss).filter fun x =>
                reducedIndex ss.length (fun d => S (d + 1)) false x == y).length)]
              congr 1
              apply List.map_congr_left
              intro i _
              by_cases hik : i = k
              · subst hik; simp
              · rw [if_neg hik, List.length_eq_zero_iff, List.filter_eq_nil_iff]
                intro x _ hc
                have hc' := List.cons.inj (beq_iff_eq.1 hc)
                exact hik (by exact_mod_cast hc'.1)
            rw [this]
            exact ih _ y
          · left
            rw [List.sum_eq_zero]
            intro v hv
            obtain ⟨i, hi, rfl⟩ := List.mem_map.1 hv
            rw [List.length_eq_zero_iff, List.filter_eq_nil_iff]
            intro x _ hc
            have hc' := List.cons.inj (beq_iff_eq.1 hc)
            exact hj ⟨i, List.mem_range.1 hi, hc'.1⟩
  unfold fibre
  rw [List.length_map]
  exact key

/-! ### C54 -/

/-- The axes that the front end passes to the kernel. -/
theorem axesToUsize_covers (n : Nat) (S : Nat → Bool) :
    axesToUsize (((List.range n).filter S).map fun (d : Nat) => (d : Int)) = (List.range n).filter S := by
  unfold axesToUsize
  rw [List.map_map]
  conv => rhs; rw [← List.map_id ((List.range n).filter S)]
  rfl

theorem contains_covered {n : Nat} {S : Nat → Bool} {d : Nat} (hd : d < n) :
    ((List.range n).filter S).contains d = S d := by
  cases h : S d with
  | true => simpa using ⟨hd, h⟩
  | false => simp [h]

theorem restAxes_covered (n : Nat) (S : Nat → Bool) :
    restAxes n ((List.range n).filter S) = (List.range n).filter fun d => !(S d) := by
  unfold restAxes
  exact List.filter_congr fun d hd => by rw [contains_covered (List.mem_range.1 hd)]

theorem covered_ne_nil {n : Nat} {arg : AxisArg} (hn : arg ≠ .none) (hne : arg ≠ .many []) (hv : arg.Valid n) :
    (List.range n).filter (arg.covers n) ≠ [] := by
  have : ∃ a, a ∈ arg.ints := by
    cases arg with
    | none => exact absurd rfl hn
    | one a => exact ⟨a, by simp [AxisArg.ints]⟩
    | many as =>
      cases as with
      | nil => exact absurd rfl hne
      | cons a as => exact ⟨a, by simp [AxisArg.ints]⟩
  obtain ⟨a, ha⟩ := this
  have hb := hv a ha
  intro h0
  by_cases h : a < 0
  · have hm : (a + n).toNat ∈ (List.range n).filter (arg.covers n) := by
      refine List.mem_filter.2 ⟨List.mem_range.2 (by omega), (covers_some hn _).2 (Or.inr ?_)⟩
      rw [show (((a + n).toNat : Nat) : Int) - n = a by omega]
      exact ha
    rw [h0] at hm; exact absurd hm List.not_mem_nil
  · have hm : a.toNat ∈ (List.range n).filter (arg.covers n) := by
      refine List.mem_filter.2 ⟨List.mem_range.2 (by omega), (covers_some hn _).2 (Or.inl ?_)⟩
      rw [show ((a.toNat : Nat) : Int) = a by omega]
      exact ha
    rw [h0] at hm; exact absurd hm List.not_mem_nil

/-- What the COOND branch does for a non-empty list of existing axes. -/
theorem reduceCoond_some (a : CooNd V) (g : V) (part : List Nat → Option (CooNd V)) {arg : AxisArg} (keep : Bool)
    (hn : arg ≠ .none) (hne : arg ≠ .many []) (hv : arg.Valid a.shape.length) :
    reduceCoond a g part arg keep =
      match part ((List.range a.shape.length).filter (arg.covers a.shape.length)) with
      | none => .error .panic
      | some r => .ok (.sparse (if keep then
          coondKeepdims a.shape.length r ((List.range a.shape.length).filter (arg.covers a.shape.length)) else r)) := by
  unfold reduceCoond
  rw [normalizeAxesNd_eq _ arg hn hv]
  have hne' := covered_ne_nil hn hne hv
  have e := axesToUsize_covers a.shape.length (arg.covers a.shape.length)
  generalize ((List.range a.shape.length).filter (arg.covers a.shape.length)) = l at hne' e
  cases l with
  | nil => exact absurd rfl hne'
  | cons d ds =>
    show (match part (axesToUsize (List.map (fun (d : Nat) => (d : Int)) (d :: ds))) with
      | none => Except.error PyErr.panic
      | some r => .ok (NdOut.sparse (if keep then
          coondKeepdims a.shape.length r (axesToUsize (List.map (fun (d : Nat) => (d : Int)) (d :: ds))) else r))) = _
    rw [e]

theorem rest_ne_nil {n : Nat} {S : Nat → Bool} (h : ∃ d, d < n ∧ S d = false) :
    ((List.range n).filter fun d => !(S d)) ≠ [] := by
  obtain ⟨d, hd, hs⟩ := h
  exact List.ne_nil_of_mem (List.mem_filter.2 ⟨List.mem_range.2 hd, by simp [hs]⟩)

/-- C54: `sum(x, axis=…, keepdims=…)` of an N-D array over existing axes that leave at least one
axis: the result has the reduced shape, is well formed and every cell is the sum of the elements
that contribute to it. -/
theorem py_sum_coond [AddCommMonoid V] {sort : List (Nat × V) → List (Nat × V)} (hsort : IsSort sort)
    {a : CooNd V} (ha : a.WF) (hai : a.I64) (g : V) {arg : AxisArg} (keep : Bool)
    (hn : arg ≠ .none) (hne : arg ≠ .many []) (hv : arg.Valid a.shape.length)
    (hleft : ∃ d, d < a.shape.length ∧ arg.covers a.shape.length d = false)
    (hno : NoOverflow (reducedShape a.shape (arg.covers a.shape.length) false)) :
    ∃ r, reduceCoond a g (reduceSumNd sort a) arg keep = .ok (.sparse r) ∧
      r.shape = reducedShape a.shape (arg.covers a.shape.length) keep ∧ r.WF ∧
      ∀ y, r.val y = (fibre a.shape (arg.covers a.shape.length) keep a.val y).sum := by
  have hrest := rest_ne_nil hleft
  have hsum := reduce_sum_correct hsort ha hai (covered_ne_nil hn hne hv)
    (fun p hp => List.mem_range.1 (List.mem_filter.1 hp).1) (List.nodup_range.filter _)
    (by rw [restAxes_covered]; exact hrest)
    (by rw [restAxes_covered, ← reducedShape_false]; exact hno)
  rw [restAxes_covered, ← reducedShape_false] at hsum
  obtain ⟨r, h1, h2, h3, _, _, h6⟩ := hsum
  have hval : ∀ y, r.val y = (fibre a.shape (arg.covers a.shape.length) false a.val y).sum := by
    intro y
    rw [h6 y]
    unfold fibre
    simp only [reducedIndex_false]
  rw [reduceCoond_some a g _ keep hn hne hv, h1]
  cases keep with
  | false => exact ⟨r, rfl, h2, h3, hval⟩
  | true =>
    obtain ⟨h4, h5⟩ := coondKeepdims_wf (S := arg.covers a.shape.length)
      (axes := (List.range a.shape.length).filter (arg.covers a.shape.length)) rfl
      (fun d hd => contains_covered hd) hrest h2 h3
    exact ⟨_, rfl, h4, h5, coondKeepdims_val rfl (fun d hd => contains_covered hd) hrest h2 List.sum rfl hval⟩

theorem length_mulScalarData [Zero V] [One V] [Mul V] [BEq V] (alpha : V) (data : List V) :
    (mulScalarData alpha data).length = data.length := by
  unfold mulScalarData
  split
  · rfl
  · split <;> simp [simdMapData_eq]

theorem reduceMeanNd_wf [Zero V] [One V] [Add V] [Mul V] [Div V] [NatCast V] [BEq V]
    {sort : List (Nat × V) → List (Nat × V)} {a : CooNd V} {axes : List Nat} {r r' : CooNd V}
    (h : reduceMeanNd sort a axes = some r) (h' : reduceSumNd sort a axes = some r') (hw : r'.WF) : r.WF := by
  unfold reduceMeanNd at h
  rw [h', Option.bind_some] at h
  obtain ⟨p, _, h⟩ := Option.bind_eq_some_iff.1 h
  split at h
  · cases h; exact hw
  · cases h
    refine ⟨hw.rank, ?_, ?_⟩
    · show r'.indices.length = (mulScalarData _ r'.data).length * r'.shape.length
      rw [length_mulScalarData]; exact hw.length
    · intro k hk d hd
      exact hw.bounds k (by simpa [mulScalarCooNd, length_mulScalarData] using hk) d hd

/-- C54: `mean(x, axis=…, keepdims=…)` of an N-D array with at least one element over existing axes
that leave at least one axis: every cell is the mean of the elements that contribute to it. -/
theorem py_mean_coond [Field V] [BEq V] [LawfulBEq V] {sort : List (Nat × V) → List (Nat × V)} (hsort : IsSort sort)
    {a : CooNd V} (ha : a.WF) (hai : a.I64) (g : V) {arg : AxisArg} (keep : Bool)
    (hn : arg ≠ .none) (hne : arg ≠ .many []) (hv : arg.Valid a.shape.length)
    (hleft : ∃ d, d < a.shape.length ∧ arg.covers a.shape.length d = false)
    (hpos : 0 < a.shape.prod) (hmax : a.shape.prod ≤ usizeMax) :
    ∃ r, reduceCoond a g (reduceMeanNd sort a) arg keep = .ok (.sparse r) ∧
      r.shape = reducedShape a.shape (arg.covers a.shape.length) keep ∧ r.WF ∧
      ∀ y, r.val y = listMean (fibre a.shape (arg.covers a.shape.length) keep a.val y) := by
  have hrest := rest_ne_nil hleft
  have hdvd : ∀ S : Nat → Bool, (((List.range a.shape.length).filter S).map fun d => a.shape.getD d 0).prod ∣ a.shape.prod := by
    intro S
    conv => rhs; rw [← map_range_getD_self a.shape 0 _ rfl]
    exact List.Sublist.prod_dvd_prod ((List.filter_sublist (p := S)).map _)
  have hle := fun S => Nat.le_of_dvd hpos (hdvd S)
  have hno : NoOverflow (reducedShape a.shape (arg.covers a.shape.length) false) := by
    rw [reducedShape_false]
    exact noOverflow_of_pos (Nat.pos_of_dvd_of_pos (hdvd _) hpos) ((hle _).trans hmax)
  have hcov : ((List.range a.shape.length).filter fun d =>
      ((List.range a.shape.length).filter (arg.covers a.shape.length)).contains d) =
      (List.range a.shape.length).filter (arg.covers a.shape.length) :=
    List.filter_congr fun d hd => contains_covered (List.mem_range.1 hd)
  have h1 := covered_ne_nil hn hne hv
  have h2 : ∀ p ∈ (List.range a.shape.length).filter (arg.covers a.shape.length), p < a.shape.length :=
    fun p hp => List.mem_range.1 (List.mem_filter.1 hp).1
  have h3 : ((List.range a.shape.length).filter (arg.covers a.shape.length)).Nodup := List.nodup_range.filter _
  have h4 : restAxes a.shape.length ((List.range a.shape.length).filter (arg.covers a.shape.length)) ≠ [] := by
    rw [restAxes_covered]; exact hrest
  have h5 : NoOverflow ((restAxes a.shape.length ((List.range a.shape.length).filter (arg.covers a.shape.length))).map
      fun d => a.shape.getD d 0) := by
    rw [restAxes_covered, ← reducedShape_false]; exact hno
  obtain ⟨r', hs, -, hw, -⟩ := reduce_sum_correct hsort ha hai h1 h2 h3 h4 h5
  have hmean := reduce_mean_correct hsort ha hai h1 h2 h3 h4 h5 hpos (by rw [hcov]; exact (hle _).trans hmax)
  rw [restAxes_covered, ← reducedShape_false, hcov] at hmean
  obtain ⟨r, hm, hsh, hv'⟩ := hmean
  have hwf := reduceMeanNd_wf hm hs hw
  have hval : ∀ y, r.val y = listMean (fibre a.shape (arg.covers a.shape.length) false a.val y) := by
    intro y
    have hfib : (((indicesOf a.shape).filter fun x =>
        select ((List.range a.shape.length).filter fun d => !(arg.covers a.shape.length d)) x == y).map a.val) =
        fibre a.shape (arg.covers a.shape.length) false a.val y := by
      unfold fibre
      simp only [reducedIndex_false]
    rw [hv' y, hfib]
    unfold listMean
    rcases fibre_length a.shape (arg.covers a.shape.length) a.val y with h0 | h0
    · rw [List.length_eq_zero_iff.1 h0]; simp
    · rw [h0]
  rw [reduceCoond_some a g _ keep hn hne hv, hm]
  cases keep with
  | false => exact ⟨r, rfl, hsh, hwf, hval⟩
  | true =>
    obtain ⟨h6, h7⟩ := coondKeepdims_wf (S := arg.covers a.shape.length)
      (axes := (List.range a.shape.length).filter (arg.covers a.shape.length)) rfl
      (fun d hd => contains_covered hd) hrest hsh hwf
    exact ⟨_, rfl, h6, h7, coondKeepdims_val rfl (fun d hd => contains_covered hd) hrest hsh listMean
      (by simp [listMean]) hval⟩

/-! ### `axis=None` and the rejected arguments -/

theorem reducedShape_all (shape : List Nat) (keep : Bool) :
    reducedShape shape (fun _ => true) keep = if keep then shape.map fun _ => 1 else [] := by
  cases keep with
  | false => rw [reducedShape_false]; simp
  | true =>
    rw [reducedShape_true]
    apply List.ext_getElem <;> simp

theorem inBounds_ones {l : List Nat} {y : List Int} (h : InBounds (l.map fun _ => 1) y) : y = l.map fun _ => 0 := by
  induction l generalizing y with
  | nil => cases h; rfl
  | cons s l ih =>
    cases h with
    | cons h1 h2 =>
      rw [List.map_cons, ih h2]
      simp only [Nat.cast_one] at h1
      congr 1
      omega

theorem isReduction_nd_all {shape : List Nat} {P : List V → W → Prop} {f : List Int → V} {g : W}
    (h : P ((indicesOf shape).map f) g) (keep : Bool) :
    IsReduction shape (fun _ => true) keep P f ⟨if keep then shape.map fun _ => 1 else [], [g]⟩ := by
  have hf : ∀ y, InBounds (if keep then shape.map fun _ => 1 else []) y →
      y = reducedIndex shape.length (fun _ => true) keep [] ∧
      rowMajor (if keep then shape.map fun _ => 1 else []) y = 0 := by
    intro y hy
    cases keep with
    | false => cases hy; exact ⟨by rw [reducedIndex_false]; simp [select], rfl⟩
    | true =>
      have := inBounds_ones hy
      subst this
      refine ⟨?_, ?_⟩
      · rw [reducedIndex_true]
        apply List.ext_getElem <;> simp
      · simp only [if_true]
        clear h hy
        induction shape with
        | nil => rfl
        | cons s l ih =>
          show (0 : Int).toNat * _ + rowMajor (l.map fun _ => 1) (l.map fun _ => 0) = 0
          rw [ih]; simp
  refine ⟨(reducedShape_all shape keep).symm, ?_, fun y hy => ⟨g, ?_, ?_⟩⟩
  · cases keep <;> simp
  · rw [(hf y hy).2]; rfl
  · have : fibre shape (fun _ => true) keep f y = (indicesOf shape).map f := by
      unfold fibre
      congr 1
      rw [List.filter_eq_self]
      intro x _
      rw [(hf y hy).1]
      cases keep with
      | false => simp [reducedIndex_false, select]
      | true => simp [reducedIndex_true]
    rw [this]; exact h

/-- C54: `sum(x)` and `mean(x)` without an axis. -/
theorem reduceCoond_none {a : CooNd V} {P : List V → V → Prop} {g : V} (part : List Nat → Option (CooNd V))
    [Add V] [Zero V] (hg : P a.cells g) (keep : Bool) :
    ∃ out, reduceCoond a g part .none keep = .ok (.dense out) ∧
      IsReduction a.shape (AxisArg.none.covers a.shape.length) keep P a.val out := by
  refine ⟨_, ?_, isReduction_nd_all hg keep⟩
  cases keep with
  | false => rfl
  | true =>
    show (npReshape ⟨[], [g]⟩ (a.shape.map fun _ => 1)).map NdOut.dense = _
    unfold npReshape
    rw [if_pos (by simp)]
    rfl

theorem py_sum_coond_none [AddCommMonoid V] {a : CooNd V} (ha : a.WF) {g : V} (hg : SumRun a.data g)
    (part : List Nat → Option (CooNd V)) (keep : Bool) :
    ∃ out, reduceCoond a g part .none keep = .ok (.dense out) ∧
      IsReduction a.shape (AxisArg.none.covers a.shape.length) keep (fun l r => r = l.sum) a.val out :=
  reduceCoond_none (P := fun l r => r = l.sum) part (sum_coond_correct ha hg) keep

theorem py_mean_coond_none [Field V] [CharZero V] [BEq V] [LawfulBEq V] {a : CooNd V} (ha : a.WF)
    (hpos : 0 < a.shape.prod) {g : V} (hg : MeanNdRun a g) (part : List Nat → Option (CooNd V)) (keep : Bool) :
    ∃ out, reduceCoond a g part .none keep = .ok (.dense out) ∧
      IsReduction a.shape (AxisArg.none.covers a.shape.length) keep (fun l r => r = listMean l) a.val out :=
  reduceCoond_none (P := fun l r => r = listMean l) part
    ((mean_coond_correct ha hg).trans (if_neg (by omega))) keep

/-- C54: an axis that does not exist raises `ValueError`, `axis=()` `NotImplementedError`. -/
theorem reduceCoond_rejects (a : CooNd V) (g : V) (part : List Nat → Option (CooNd V)) (arg : AxisArg) (keep : Bool) :
    (¬ arg.Valid a.shape.length → reduceCoond a g part arg keep = .error .valueError) ∧
    reduceCoond a g part (.many []) keep = .error .notImplemented := by
  refine ⟨fun h => ?_, rfl⟩
  unfold reduceCoond
  rw [normalizeAxesNd_invalid _ arg h]
  rfl

/-- C54, negative part: for every array, listing all its axes panics in the kernel instead of
reducing everything, although `axis=None` works; in particular `sum(x, axis=0)` of any 1-D array.
(So the `rem_ndim == 0` branch of `_coond_with_keepdims` is never taken.) -/
theorem py_coond_all_axes_panics [Zero V] [One V] [Add V] [Mul V] [Div V] [NatCast V] [BEq V]
    (sort : List (Nat × V) → List (Nat × V)) (a : CooNd V) (g : V) {arg : AxisArg}
    (keep : Bool) (hn : arg ≠ .none) (hne : arg ≠ .many []) (hv : arg.Valid a.shape.length)
    (hall : ∀ d, d < a.shape.length → arg.covers a.shape.length d = true) :
    reduceCoond a g (reduceSumNd sort a) arg keep = .error .panic ∧
    reduceCoond a g (reduceMeanNd sort a) arg keep = .error .panic := by
  have h : reduceSumNd sort a ((List.range a.shape.length).filter (arg.covers a.shape.length)) = none := by
    apply reduce_sum_rejects
    right; right; right
    rw [restAxes_covered, List.filter_eq_nil_iff]
    intro d hd
    simp [hall d (List.mem_range.1 hd)]
  rw [reduceCoond_some a g _ keep hn hne hv, reduceCoond_some a g _ keep hn hne hv]
  unfold reduceMeanNd
  rw [h]
  exact ⟨rfl, rfl⟩

/-! ### Witnesses -/

/-- `sum(x, axis=-1, keepdims=True)` of `[[0,5,0],[0,0,7]]` (the cell (1,2) is stored as 4 and 3). -/
example : ∃ r, reduceCoond exN 12 (reduceSumNd (fun l => l.mergeSort (fun a b => decide (a.1 ≤ b.1))) exN) (.one (-1)) true =
    .ok (.sparse r) ∧ r.shape = [2, 1] ∧ r.val [0, 0] = 5 ∧ r.val [1, 0] = 7 := by
  obtain ⟨r, h1, h2, h3, h4⟩ := py_sum_coond isSort_mergeSort exN_wf (by unfold CooNd.I64; decide) 12 true
    (arg := .one (-1)) (by decide) (by decide) (by intro a ha; simp [AxisArg.ints] at ha; subst ha; decide)
    ⟨0, by decide, by decide⟩ (noOverflow_of_pos (by decide) (by decide))
  exact ⟨r, h1, h2, (h4 _).trans (by decide), (h4 _).trans (by decide)⟩

example : reduceCoond exN 12 (fun _ => none) (.many [0, -1]) false = .error .panic := by decide
example : reduceCoond exN 12 (fun _ => none) .none true = .ok (.dense ⟨[1, 1], [12]⟩) := by decide

/-- A 2×2×1 array of rationals whose mean along axis 0 is taken. -/
def exNq : CooNd ℚ := ⟨[2, 2, 1], [0, 0, 0, 1, 0, 0, 1, 1, 0], [1, 4, 3]⟩
theorem exNq_wf : exNq.WF := ⟨by decide, by decide, by decide⟩
example : ∃ r, reduceCoond exNq 2 (reduceMeanNd (fun l => l.mergeSort (fun a b => decide (a.1 ≤ b.1))) exNq) (.many [0, -3]) true =
    .ok (.sparse r) ∧ r.shape = [1, 2, 1] ∧ r.val [0, 0, 0] = 5 / 2 ∧ r.val [0, 1, 0] = 3 / 2 := by
  obtain ⟨r, h1, h2, h3, h4⟩ := py_mean_coond isSort_mergeSort exNq_wf (by unfold CooNd.I64; decide) 2 true
    (arg := .many [0, -3]) (by decide) (by decide) (by intro a ha; simp [AxisArg.ints] at ha; rcases ha with rfl | rfl <;> decide)
    ⟨1, by decide, by decide⟩ (by decide) (by decide)
  exact ⟨r, h1, h2, (h4 _).trans (by decide +kernel), (h4 _).trans (by decide +kernel)⟩

end Lacuna
