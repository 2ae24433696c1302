import Verif.Lemmas.PyReduce
import Verif.Lemmas.PyIndex
/-
C50, C51: axis arguments of the Python reductions and the reduction of 2-D inputs over them.
-/
namespace Lacuna
universe u w
variable {V : Type u} {W : Type w}

/-- C50: a valid axis argument becomes the increasing list of the axes it denotes, each once. -/
theorem normalize_axes_nd (ndim : Nat) (arg : AxisArg) (hn : arg ≠ .none) (hv : arg.Valid ndim) :
    normalizeAxesNd ndim arg = .ok (some (((List.range ndim).filter (arg.covers ndim)).map fun (d : Nat) => (d : Int))) :=
  normalizeAxesNd_eq ndim arg hn hv

/-- C50: `None` stays `None`; an axis outside `[-ndim, ndim)` raises `ValueError`. -/
theorem normalize_axes_nd_other (ndim : Nat) (arg : AxisArg) :
    normalizeAxesNd ndim .none = .ok none ∧
    (¬ arg.Valid ndim → normalizeAxesNd ndim arg = .error .valueError) :=
  ⟨rfl, normalizeAxesNd_invalid ndim arg⟩

/-- C50: the separate 2-D version behaves as the N-D version for rank 2. -/
theorem normalize_axes_2d (arg : AxisArg) : normalizeAxes2d arg = normalizeAxesNd 2 arg := normalizeAxes2d_eq arg

example : AxisArg.Valid 3 (.many [-1, 0, 2, -1]) := by
  intro a ha; simp [AxisArg.ints] at ha; omega
example : normalizeAxesNd 3 (.many [-1, 0, 2, -1]) = .ok (some [0, 2]) := by decide
example : ¬ AxisArg.Valid 2 (.one 2) := by intro h; have := h 2 (by simp [AxisArg.ints]); omega
example : normalizeAxes2d (.many [1, -3]) = .error .valueError := by decide

/-- The three results a 2-D reduction can need. -/
structure Kernels2d (n m : Nat) (P : List V → W → Prop) (f : Nat → Nat → V) (g : W) (cs rs : List W) : Prop where
  glob : P (cellsOf n m f) g
  cols : cs.length = m ∧ ∀ j r, cs[j]? = some r → P ((List.range n).map fun i => f i j) r
  rows : rs.length = n ∧ ∀ i r, rs[i]? = some r → P ((List.range m).map fun j => f i j) r

theorem indicesOf_pair (n m : Nat) : indicesOf [n, m] =
    (List.range n).flatMap fun (i : Nat) => (List.range m).map fun (j : Nat) => [(i : Int), (j : Int)] := by
  unfold indicesOf indicesOf indicesOf
  congr 1
  funext i
  rw [List.map_flatMap]
  simp only [List.map_cons, List.map_nil]
  rw [← List.map_eq_flatMap]
  rfl

theorem fibre_all (n m : Nat) (S : Nat → Bool) (h0 : S 0 = true) (h1 : S 1 = true) (keep : Bool) (f : Nat → Nat → V)
    (y : List Int) (hy : y = if keep then [0, 0] else []) :
    fibre [n, m] S keep (matFun f) y = cellsOf n m f := by
  have hr : ∀ x, reducedIndex 2 S keep x = y := by
    intro x
    subst hy
    cases keep <;> simp [reducedIndex, List.range_succ, h0, h1]
  unfold fibre
  rw [List.filter_eq_self.2 (fun x _ => by
    show (reducedIndex 2 S keep x == y) = true
    exact beq_iff_eq.2 (hr x)), indicesOf_pair, List.map_flatMap]
  unfold cellsOf
  congr 1
  funext i
  rw [List.map_map]
  rfl

theorem fibre_cols (n m : Nat) (S : Nat → Bool) (h0 : S 0 = true) (h1 : S 1 = false) (keep : Bool) (f : Nat → Nat → V)
    (y : List Int) (j : Nat) (hj : j < m) (hy : y = if keep then [0, (j : Int)] else [(j : Int)]) :
    fibre [n, m] S keep (matFun f) y = (List.range n).map fun i => f i j := by
  have hr : ∀ i k : Nat, (reducedIndex 2 S keep [(i : Int), (k : Int)] == y) = (k == j) := by
    intro i k
    subst hy
    rw [Bool.eq_iff_iff]
    cases keep <;> simp [reducedIndex, List.range_succ, h0, h1] <;> omega
  unfold fibre
  rw [indicesOf_pair, List.filter_flatMap, List.map_flatMap, List.map_eq_flatMap]
  congr 1
  funext i
  have he : ((fun x => reducedIndex [n, m].length S keep x == y) ∘ fun (k : Nat) => [(i : Int), (k : Int)]) =
      fun k => k == j := funext fun k => hr i k
  rw [List.filter_map, List.map_map, he]
  rw [List.filter_beq, List.count_eq_one_of_mem List.nodup_range (List.mem_range.2 hj)]
  rfl

theorem fibre_rows (n m : Nat) (S : Nat → Bool) (h0 : S 0 = false) (h1 : S 1 = true) (keep : Bool) (f : Nat → Nat → V)
    (y : List Int) (i : Nat) (hi : i < n) (hy : y = if keep then [(i : Int), 0] else [(i : Int)]) :
    fibre [n, m] S keep (matFun f) y = (List.range m).map fun j => f i j := by
  have hr : ∀ k j : Nat, (reducedIndex 2 S keep [(k : Int), (j : Int)] == y) = (k == i) := by
    intro k j
    subst hy
    rw [Bool.eq_iff_iff]
    cases keep <;> simp [reducedIndex, List.range_succ, h0, h1] <;> omega
  unfold fibre
  rw [indicesOf_pair, List.filter_flatMap, List.map_flatMap]
  have : ∀ k : Nat, ((((List.range m).map fun (j : Nat) => [(k : Int), (j : Int)]).filter
      fun x => reducedIndex [n, m].length S keep x == y).map (matFun f)) =
      if k = i then (List.range m).map fun j => f i j else [] := by
    intro k
    have he : ((fun x => reducedIndex [n, m].length S keep x == y) ∘ fun (j : Nat) => [(k : Int), (j : Int)]) =
        fun _ => k == i := funext fun j => hr k j
    rw [List.filter_map, List.map_map, he]
    split
    · rename_i h
      subst h
      rw [List.filter_eq_self.2 (by simp)]
      rfl
    · rename_i h
      rw [List.filter_eq_nil_iff.2 (by simp [h])]
      rfl
  simp only [this]
  rw [flatMap_range_single hi (fun k _ hk => if_neg hk), if_pos rfl]

/-- A valid argument that is not `()` denotes at least one of the two axes. -/
theorem covers_some_axis {arg : AxisArg} (hv : arg.Valid 2) (hne : arg ≠ .many []) :
    arg.covers 2 0 = true ∨ arg.covers 2 1 = true := by
  by_cases hn : arg = .none
  · subst hn; exact .inl rfl
  · have : ∃ a, a ∈ arg.ints := by
      cases arg with
      | none => exact absurd rfl hn
      | one a => exact ⟨a, by simp [AxisArg.ints]⟩
      | many as =>
        cases as with
        | nil => exact absurd rfl hne
        | cons a as => exact ⟨a, by simp [AxisArg.ints]⟩
    obtain ⟨a, ha⟩ := this
    have hb := hv a ha
    rw [covers_some hn, covers_some hn]
    have : a = 0 ∨ a = 1 ∨ a = -2 ∨ a = -1 := by omega
    rcases this with rfl | rfl | rfl | rfl
    · exact .inl (.inl ha)
    · exact .inr (.inl ha)
    · exact .inl (.inr ha)
    · exact .inr (.inr ha)

theorem isReduction_glob {n m : Nat} {S : Nat → Bool} (h0 : S 0 = true) (h1 : S 1 = true) (keep : Bool)
    {P : List V → W → Prop} {f : Nat → Nat → V} {g : W} (hg : P (cellsOf n m f) g) :
    IsReduction [n, m] S keep P (matFun f) ⟨if keep then [1, 1] else [], [g]⟩ := by
  refine ⟨?_, ?_, fun y hy => ⟨g, ?_, ?_⟩⟩
  · cases keep <;> simp [reducedShape, List.range_succ, h0, h1]
  · cases keep <;> simp
  · cases keep
    · simp only [Bool.false_eq_true, if_false] at hy ⊢
      cases hy
      rfl
    · simp only [if_true] at hy ⊢
      obtain ⟨i, y1, hi, hy1, rfl⟩ := List.forall₂_cons_right_iff.1 hy
      obtain ⟨j, y2, hj, hy2, rfl⟩ := List.forall₂_cons_right_iff.1 hy1
      cases hy2
      have hi : i = 0 := by omega
      have hj : j = 0 := by omega
      subst hi; subst hj
      rfl
  · rw [fibre_all n m S h0 h1 keep f y]
    · exact hg
    · cases keep
      · simp only [Bool.false_eq_true, if_false] at hy ⊢
        cases hy
        rfl
      · simp only [if_true] at hy ⊢
        obtain ⟨i, y1, hi, hy1, rfl⟩ := List.forall₂_cons_right_iff.1 hy
        obtain ⟨j, y2, hj, hy2, rfl⟩ := List.forall₂_cons_right_iff.1 hy1
        cases hy2
        have hi : i = 0 := by omega
        have hj : j = 0 := by omega
        rw [hi, hj]

theorem isReduction_cols {n m : Nat} {S : Nat → Bool} (h0 : S 0 = true) (h1 : S 1 = false) (keep : Bool)
    {P : List V → W → Prop} {f : Nat → Nat → V} {cs : List W}
    (hc : cs.length = m ∧ ∀ j r, cs[j]? = some r → P ((List.range n).map fun i => f i j) r) :
    IsReduction [n, m] S keep P (matFun f) ⟨if keep then [1, m] else [m], cs⟩ := by
  have hidx : ∀ y, InBounds (if keep then [1, m] else [m]) y →
      ∃ j : Nat, j < m ∧ y = (if keep then [0, (j : Int)] else [(j : Int)]) ∧
        rowMajor (if keep then [1, m] else [m]) y = j := by
    intro y hy
    cases keep
    · simp only [Bool.false_eq_true, if_false] at hy ⊢
      obtain ⟨j, y2, hj, hy2, rfl⟩ := List.forall₂_cons_right_iff.1 hy
      cases hy2
      obtain ⟨k, rfl⟩ := Int.eq_ofNat_of_zero_le hj.1
      exact ⟨k, by omega, rfl, by simp [rowMajor]⟩
    · simp only [if_true] at hy ⊢
      obtain ⟨i, y1, hi, hy1, rfl⟩ := List.forall₂_cons_right_iff.1 hy
      obtain ⟨j, y2, hj, hy2, rfl⟩ := List.forall₂_cons_right_iff.1 hy1
      cases hy2
      have hi : i = 0 := by omega
      subst hi
      obtain ⟨k, rfl⟩ := Int.eq_ofNat_of_zero_le hj.1
      exact ⟨k, by omega, rfl, by simp [rowMajor]⟩
  refine ⟨?_, ?_, fun y hy => ?_⟩
  · cases keep <;> simp [reducedShape, List.range_succ, h0, h1]
  · cases keep <;> simp [hc.1]
  · obtain ⟨j, hj, he, hr⟩ := hidx y hy
    have hget : cs[j]? = some (cs[j]'(by rw [hc.1]; exact hj)) := List.getElem?_eq_getElem _
    refine ⟨_, (congrArg (cs[·]?) hr).trans hget, ?_⟩
    rw [fibre_cols n m S h0 h1 keep f y j hj he]
    exact hc.2 j _ hget

theorem isReduction_rows {n m : Nat} {S : Nat → Bool} (h0 : S 0 = false) (h1 : S 1 = true) (keep : Bool)
    {P : List V → W → Prop} {f : Nat → Nat → V} {rs : List W}
    (hr : rs.length = n ∧ ∀ i r, rs[i]? = some r → P ((List.range m).map fun j => f i j) r) :
    IsReduction [n, m] S keep P (matFun f) ⟨if keep then [n, 1] else [n], rs⟩ := by
  have hidx : ∀ y, InBounds (if keep then [n, 1] else [n]) y →
      ∃ i : Nat, i < n ∧ y = (if keep then [(i : Int), 0] else [(i : Int)]) ∧
        rowMajor (if keep then [n, 1] else [n]) y = i := by
    intro y hy
    cases keep
    · simp only [Bool.false_eq_true, if_false] at hy ⊢
      obtain ⟨j, y2, hj, hy2, rfl⟩ := List.forall₂_cons_right_iff.1 hy
      cases hy2
      obtain ⟨k, rfl⟩ := Int.eq_ofNat_of_zero_le hj.1
      exact ⟨k, by omega, rfl, by simp [rowMajor]⟩
    · simp only [if_true] at hy ⊢
      obtain ⟨i, y1, hi, hy1, rfl⟩ := List.forall₂_cons_right_iff.1 hy
      obtain ⟨j, y2, hj, hy2, rfl⟩ := List.forall₂_cons_right_iff.1 hy1
      cases hy2
      have hj : j = 0 := by omega
      subst hj
      obtain ⟨k, rfl⟩ := Int.eq_ofNat_of_zero_le hi.1
      exact ⟨k, by omega, rfl, by simp [rowMajor]⟩
  refine ⟨?_, ?_, fun y hy => ?_⟩
  · cases keep <;> simp [reducedShape, List.range_succ, h0, h1]
  · cases keep <;> simp [hr.1]
  · obtain ⟨i, hi, he, hm⟩ := hidx y hy
    have hget : rs[i]? = some (rs[i]'(by rw [hr.1]; exact hi)) := List.getElem?_eq_getElem _
    refine ⟨_, (congrArg (rs[·]?) hm).trans hget, ?_⟩
    rw [fibre_rows n m S h0 h1 keep f y i hi he]
    exact hr.2 i _ hget

/-- C51: a 2-D reduction returns, for every valid axis argument that names an axis or is `None`
and both settings of `keepdims`, the reduction over exactly those axes. -/
theorem reduce2d_correct {n m : Nat} {P : List V → W → Prop} {f : Nat → Nat → V} {g : W} {cs rs : List W}
    (hk : Kernels2d n m P f g cs rs) (arg : AxisArg) (keep : Bool) (hv : arg.Valid 2) (hne : arg ≠ .many []) :
    ∃ out, reduce2d n m (.ok g) (.ok cs) (.ok rs) arg keep = .ok out ∧
      IsReduction [n, m] (arg.covers 2) keep P (matFun f) out := by
  have hglob : (if keep then npReshape (⟨[], [g]⟩ : NdArr W) [1, 1] else .ok ⟨[], [g]⟩) =
      .ok ⟨if keep then [1, 1] else [], [g]⟩ := by cases keep <;> rfl
  by_cases hn : arg = .none
  · subst hn
    exact ⟨_, hglob, isReduction_glob rfl rfl keep hk.glob⟩
  · unfold reduce2d
    rw [normalizeAxes2d_eq, normalizeAxesNd_eq 2 arg hn hv]
    rcases Bool.eq_false_or_eq_true (arg.covers 2 0) with h0 | h0 <;>
    rcases Bool.eq_false_or_eq_true (arg.covers 2 1) with h1 | h1
    · exact ⟨_, by simpa [List.range_succ, h0, h1, Except.bind] using hglob, isReduction_glob h0 h1 keep hk.glob⟩
    · refine ⟨_, ?_, isReduction_cols h0 h1 keep hk.cols⟩
      cases keep <;> simp [List.range_succ, h0, h1, Except.bind, npReshape, hk.cols.1]
    · refine ⟨_, ?_, isReduction_rows h0 h1 keep hk.rows⟩
      cases keep <;> simp [List.range_succ, h0, h1, Except.bind, npReshape, hk.rows.1]
    · rcases covers_some_axis hv hne with h | h
      · rw [h0] at h; exact absurd h (by decide)
      · rw [h1] at h; exact absurd h (by decide)

/-- C51: an axis that does not exist raises `ValueError`, the empty tuple
`NotImplementedError`, whatever the kernels do. -/
theorem reduce2d_rejects (n m : Nat) (g : Except PyErr W) (cs rs : Except PyErr (List W)) (arg : AxisArg) (keep : Bool) :
    (¬ arg.Valid 2 → reduce2d n m g cs rs arg keep = .error .valueError) ∧
    reduce2d n m g cs rs (.many []) keep = .error .notImplemented := by
  refine ⟨fun h => ?_, rfl⟩
  unfold reduce2d
  rw [normalizeAxes2d_eq, normalizeAxesNd_invalid 2 arg h]
  rfl

end Lacuna
