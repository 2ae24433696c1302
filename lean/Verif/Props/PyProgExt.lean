import Verif.Props.PyScanAny
/-
C76: `min` and `max` in the end of programs, in exact arithmetic.  An ordered field has no infinities, so
the constants the loops start with are only assumed to bound the cells of the program.
-/
set_option linter.unusedSectionVars false

namespace Lacuna
variable {V : Type}

/-- `f64::min`, `f64::max`, their vector forms and `<` are those of a linear order. -/
structure OrderMinMax (V : Type) [LinearOrder V] [HasMinMax V] [HasLt V] : Prop where
  fmin_eq : ∀ x y : V, fmin x y = min x y
  fmax_eq : ∀ x y : V, fmax x y = max x y
  vmin_eq : ∀ x y : V, vmin x y = min x y
  vmax_eq : ∀ x y : V, vmax x y = max x y
  flt_iff : ∀ x y : V, flt x y = true ↔ x < y

section
variable [LinearOrder V] [HasMinMax V] [HasLt V]

theorem minJoin_min (M : OrderMinMax V) {a b c : V} (h : MinJoin a b c) : c = min a b := by
  rcases h with rfl | rfl | rfl
  · exact M.fmin_eq a b
  · exact M.vmin_eq a b
  · split
    next h => exact (min_eq_right (le_of_lt ((M.flt_iff _ _).1 h))).symm
    next h => exact (min_eq_left (le_of_not_gt fun hc => h ((M.flt_iff _ _).2 hc))).symm

theorem maxJoin_max (M : OrderMinMax V) {a b c : V} (h : MaxJoin a b c) : c = max a b := by
  rcases h with rfl | rfl | rfl
  · exact M.fmax_eq a b
  · exact M.vmax_eq a b
  · split
    next h => exact (max_eq_right (le_of_lt ((M.flt_iff _ _).1 h))).symm
    next h => exact (max_eq_left (le_of_not_gt fun hc => h ((M.flt_iff _ _).2 hc))).symm

theorem minJoin_tree (M : OrderMinMax V) {t : V} {s : Multiset V} {r : V} (h : JoinTree MinJoin t s r) :
    (r = t ∨ r ∈ s) ∧ ∀ x ∈ s, r ≤ x := by
  induction h with
  | unit => exact ⟨.inl rfl, by simp⟩
  | leaf x => exact ⟨.inr (Multiset.mem_singleton_self x), fun y hy => by rw [Multiset.mem_singleton.1 hy]⟩
  | @node s t a b c _ _ e iha ihb =>
    obtain rfl := minJoin_min M e
    refine ⟨?_, fun x hx => ?_⟩
    · rcases min_choice a b with h | h <;> rw [h]
      · exact iha.1.imp_right fun h => Multiset.mem_add.2 (.inl h)
      · exact ihb.1.imp_right fun h => Multiset.mem_add.2 (.inr h)
    · rcases Multiset.mem_add.1 hx with hx | hx
      · exact (min_le_left _ _).trans (iha.2 x hx)
      · exact (min_le_right _ _).trans (ihb.2 x hx)

theorem maxJoin_tree (M : OrderMinMax V) {t : V} {s : Multiset V} {r : V} (h : JoinTree MaxJoin t s r) :
    (r = t ∨ r ∈ s) ∧ ∀ x ∈ s, x ≤ r := by
  induction h with
  | unit => exact ⟨.inl rfl, by simp⟩
  | leaf x => exact ⟨.inr (Multiset.mem_singleton_self x), fun y hy => by rw [Multiset.mem_singleton.1 hy]⟩
  | @node s t a b c _ _ e iha ihb =>
    obtain rfl := maxJoin_max M e
    refine ⟨?_, fun x hx => ?_⟩
    · rcases max_choice a b with h | h <;> rw [h]
      · exact iha.1.imp_right fun h => Multiset.mem_add.2 (.inl h)
      · exact ihb.1.imp_right fun h => Multiset.mem_add.2 (.inr h)
    · rcases Multiset.mem_add.1 hx with hx | hx
      · exact (iha.2 x hx).trans (le_max_left _ _)
      · exact (ihb.2 x hx).trans (le_max_right _ _)

end

/-- A cell of a value that stores none twice holds nothing and is zero, or holds what it is. -/
theorem SpVal.held_once [AddMonoid V] {v : SpVal V} (h2 : v.ty.Is2d) (hon : v.Once) {x : List Int}
    (hx : InBounds v.ty.shape x) : (v.held x = [] ∧ v.cell x = 0) ∨ v.held x = [v.cell x] := by
  have key : (v.held x).length ≤ 1 ∧ v.cell x = (v.held x).sum := by
    cases v with
    | mat f a =>
      cases f with
      | csr =>
        obtain ⟨i, j, hi, hj, rfl⟩ := inBounds_two (show InBounds [a.n, a.m] x from hx)
        refine ⟨?_, ?_⟩
        · rw [held_csr a hi j, cell_toList hon]
          cases a.stored i j <;> simp
        · rw [held_csr a hi j]; rfl
      | csc =>
        obtain ⟨i, j, hi, hj, rfl⟩ := inBounds_two (show InBounds [a.m, a.n] x from hx)
        refine ⟨?_, ?_⟩
        · rw [held_csc a i hj, cell_toList hon]
          cases a.stored j i <;> simp
        · rw [held_csc a i hj]; rfl
    | coo a =>
      obtain ⟨i, j, hi, hj, rfl⟩ := inBounds_two (show InBounds [a.nrows, a.ncols] x from hx)
      rw [held_coo]
      exact ⟨by
        unfold valuesAt
        rw [List.length_map, ← List.countP_eq_length_filter]
        have := List.nodup_iff_count_le_one.1 hon ((i : Int), (j : Int))
        rw [List.count, List.countP_map] at this
        exact this, by
        show ((a.triples.filter fun t => t.1.1 == (i : Int) && t.1.2 == (j : Int)).map Prod.snd).sum = _
        unfold valuesAt
        congr 2⟩
    | nd a => exact absurd h2 id
  obtain ⟨hlen, hcell⟩ := key
  cases hh : v.held x with
  | nil => rw [hh] at hcell; exact .inl ⟨rfl, by rw [hcell]; rfl⟩
  | cons y t =>
    cases t with
    | nil => rw [hh] at hcell; exact .inr (by rw [hcell]; simp)
    | cons z t => rw [hh] at hlen; simp at hlen

/-- The numbers compared, those stored and a zero if a cell is empty, are the cells. -/
theorem held_zero_mem [Zero V] {α : Type} (xs : List α) {held : α → List V} {cell : α → V}
    (h : ∀ x ∈ xs, (held x = [] ∧ cell x = 0) ∨ held x = [cell x]) (v : V) :
    v ∈ (if Multiset.card (((xs.map held).flatten : List V) : Multiset V) < (xs.map held).length
      then 0 ::ₘ (((xs.map held).flatten : List V) : Multiset V) else ((xs.map held).flatten : List V)) ↔ v ∈ xs.map cell := by
  have hflat : ∀ v, v ∈ (xs.map held).flatten ↔ ∃ x ∈ xs, held x = [cell x] ∧ v = cell x := by
    intro v
    rw [List.mem_flatten]
    constructor
    · rintro ⟨l, hl, hv⟩
      obtain ⟨x, hx, rfl⟩ := List.mem_map.1 hl
      rcases h x hx with ⟨e, -⟩ | e
      · rw [e] at hv; cases hv
      · rw [e] at hv; exact ⟨x, hx, e, List.mem_singleton.1 hv⟩
    · rintro ⟨x, hx, e, rfl⟩
      exact ⟨_, List.mem_map_of_mem hx, by rw [e]; exact List.mem_singleton_self _⟩
  have hcard : (xs.map held).flatten.length < xs.length ↔ ∃ x ∈ xs, held x = [] := by
    have : ∀ ys : List α, (∀ x ∈ ys, held x = [] ∨ ∃ v, held x = [v]) → (ys.map held).flatten.length ≤ ys.length ∧
        ((ys.map held).flatten.length < ys.length ↔ ∃ x ∈ ys, held x = []) := by
      intro ys
      induction ys with
      | nil => intro _; simp
      | cons x ys ih =>
        intro h
        obtain ⟨i1, i2⟩ := ih fun y hy => h y (List.mem_cons_of_mem _ hy)
        rw [List.map_cons, List.flatten_cons, List.length_append, List.length_cons]
        rcases h x List.mem_cons_self with e | ⟨v, e⟩
        · rw [e, List.length_nil]
          exact ⟨by omega, ⟨fun _ => ⟨x, List.mem_cons_self, e⟩, fun _ => by omega⟩⟩
        · rw [e, List.length_singleton]
          refine ⟨by omega, ⟨fun hlt => ?_, ?_⟩⟩
          · obtain ⟨y, hy, e⟩ := i2.1 (by omega)
            exact ⟨y, List.mem_cons_of_mem _ hy, e⟩
          · rintro ⟨y, hy, e'⟩
            rcases List.mem_cons.1 hy with rfl | hy
            · rw [e] at e'; cases e'
            · have := i2.2 ⟨y, hy, e'⟩; omega
    exact (this xs fun x hx => (h x hx).imp And.left fun e => ⟨_, e⟩).2
  rw [Multiset.coe_card, List.length_map, List.mem_map]
  have hall : (∃ x ∈ xs, cell x = v) ↔ (v = 0 ∧ ∃ x ∈ xs, held x = []) ∨ v ∈ (xs.map held).flatten := by
    rw [hflat]
    constructor
    · rintro ⟨x, hx, rfl⟩
      rcases h x hx with ⟨e, e0⟩ | e
      · exact .inl ⟨e0, x, hx, e⟩
      · exact .inr ⟨x, hx, e, rfl⟩
    · rintro (⟨rfl, x, hx, e⟩ | ⟨x, hx, -, rfl⟩)
      · rcases h x hx with ⟨-, e0⟩ | e'
        · exact ⟨x, hx, e0⟩
        · rw [e] at e'; cases e'
      · exact ⟨x, hx, rfl⟩
  rw [hall]
  split
  next hlt => rw [Multiset.mem_cons, Multiset.mem_coe, and_iff_left (hcard.1 hlt)]
  next hlt =>
    rw [Multiset.mem_coe]
    exact ⟨.inr, fun h => h.resolve_left fun h => hlt (hcard.2 h.2)⟩

theorem forall₂_one {α β : Type} {R : α → β → Prop} {x : List α} {s : β} (h : List.Forall₂ R x [s]) :
    ∃ a, R a s ∧ x = [a] := by
  cases h with
  | cons h1 h => cases h; exact ⟨_, h1, rfl⟩

theorem forall₂_two {α β : Type} {R : α → β → Prop} {x : List α} {s t : β} (h : List.Forall₂ R x [s, t]) :
    ∃ a b, R a s ∧ R b t ∧ x = [a, b] := by
  cases h with
  | cons h1 h =>
    cases h with
    | cons h2 h => cases h; exact ⟨_, _, h1, h2, rfl⟩

/-- With at least one cell, every cell of a reduced matrix has cells above it. -/
theorem fibre_two_ne_nil {W : Type} {n m : Nat} (hpos : 0 < [n, m].prod) (S : Nat → Bool) (keep : Bool) {y : List Int}
    (hy : InBounds (reducedShape [n, m] S keep) y) (f : List Int → W) : fibre [n, m] S keep f y ≠ [] := by
  have hn : 0 < n := Nat.pos_of_ne_zero fun h => by simp [h] at hpos
  have hm : 0 < m := Nat.pos_of_ne_zero fun h => by simp [h] at hpos
  suffices h : ∃ x, InBounds [n, m] x ∧ reducedIndex 2 S keep x = y by
    obtain ⟨x, hx, e⟩ := h
    refine List.ne_nil_of_mem (List.mem_map_of_mem (a := x) (List.mem_filter.2 ⟨mem_indicesOf.2 hx, ?_⟩))
    simp [e]
  have r2 : List.range 2 = [0, 1] := rfl
  unfold reducedShape at hy
  unfold reducedIndex
  simp only [List.length_cons, List.length_nil, Nat.zero_add, Nat.reduceAdd, r2, List.flatMap_cons, List.flatMap_nil,
    List.append_nil] at hy ⊢
  have one : ∀ {a : Int}, 0 ≤ a ∧ a < ((1 : Nat) : Int) → a = 0 := fun h => by omega
  have zn : (0 : Int) ≤ 0 ∧ (0 : Int) < (n : Int) := ⟨le_refl _, by omega⟩
  have zm : (0 : Int) ≤ 0 ∧ (0 : Int) < (m : Int) := ⟨le_refl _, by omega⟩
  cases h0 : S 0 <;> cases h1 : S 1 <;> rw [h0, h1] at hy
  · obtain ⟨a, b, ha, hb, rfl⟩ := forall₂_two hy
    exact ⟨[a, b], .cons ha (.cons hb .nil), rfl⟩
  · cases keep
    · obtain ⟨a, ha, rfl⟩ := forall₂_one hy
      exact ⟨[a, 0], .cons ha (.cons zm .nil), rfl⟩
    · obtain ⟨a, b, ha, hb, rfl⟩ := forall₂_two hy
      obtain rfl := one hb
      exact ⟨[a, 0], .cons ha (.cons zm .nil), rfl⟩
  · cases keep
    · obtain ⟨b, hb, rfl⟩ := forall₂_one hy
      exact ⟨[0, b], .cons zn (.cons hb .nil), rfl⟩
    · obtain ⟨a, b, ha, hb, rfl⟩ := forall₂_two hy
      obtain rfl := one ha
      exact ⟨[0, b], .cons zn (.cons hb .nil), rfl⟩
  · cases keep
    · obtain rfl : y = [] := by cases hy; rfl
      exact ⟨[0, 0], .cons zn (.cons zm .nil), rfl⟩
    · obtain ⟨a, b, ha, hb, rfl⟩ := forall₂_two hy
      obtain rfl := one ha
      obtain rfl := one hb
      exact ⟨[0, 0], .cons zn (.cons zm .nil), rfl⟩

/-- C76: `min` and `max` of a valid object without repeated coordinates, if its cells lie between the two
constants the loops start with. -/
theorem py_minmax_within [LinearOrder V] [AddMonoid V] [One V] [Sub V] [Mul V] [Div V] [BEq V] [NatCast V] [HasLt V]
    [HasMinMax V] [HasSqrt V] (M : OrderMinMax V) {env : PyEnv V} (he : env.Ok) {v : SpVal V} (hv : v.Valid)
    (hs : v.ty.SizeOk v.nnz) (h2 : v.ty.Is2d) (hon : v.Once) (hpos : 0 < v.ty.shape.prod)
    (hb : ∀ x, InBounds v.ty.shape x → negInf ≤ v.cell x ∧ v.cell x ≤ posInf)
    {axis : AxisArg} (keep : Bool) (ha : axis.Valid 2) (hne : axis ≠ .many []) :
    ((∃ out, RedMethod env .min axis keep v.obj out) ∧
      ∀ out, RedMethod env .min axis keep v.obj out →
        ∃ r, out = .ret (.dense r) ∧ IsReduction v.ty.shape (axis.covers 2) keep IsMinOf v.cell r) ∧
    ((∃ out, RedMethod env .max axis keep v.obj out) ∧
      ∀ out, RedMethod env .max axis keep v.obj out →
        ∃ r, out = .ret (.dense r) ∧ IsReduction v.ty.shape (axis.covers 2) keep IsMaxOf v.cell r) := by
  have hfib : ∀ y, ∃ xs : List (List Int), (∀ x ∈ xs, InBounds v.ty.shape x) ∧
      ∀ {W : Type} (f : List Int → W), fibre v.ty.shape (axis.covers 2) keep f y = xs.map f :=
    fun y => ⟨_, fun _ hx => mem_indicesOf.1 (List.mem_filter.1 hx).1, fun _ => rfl⟩
  have hnonempty : ∀ y, InBounds (reducedShape v.ty.shape (axis.covers 2) keep) y →
      fibre v.ty.shape (axis.covers 2) keep v.cell y ≠ [] := by
    intro y hy
    cases v with
    | mat f a => cases f <;> exact fibre_two_ne_nil hpos _ _ hy _
    | coo a => exact fibre_two_ne_nil hpos _ _ hy _
    | nd a => exact absurd h2 id
  constructor
  · obtain ⟨hex, hall⟩ := py_reduce_any he hv hs h2 (op := .min) keep ha hne nofun
    refine ⟨hex, fun out ho => ?_⟩
    obtain ⟨r, e, hr⟩ := hall out ho
    refine ⟨r, e, hr.shape_eq, hr.size, fun y hy => ?_⟩
    obtain ⟨w, h1, hw⟩ := hr.cell y hy
    refine ⟨w, h1, ?_⟩
    have hne := hnonempty y (by rw [← hr.shape_eq]; exact hy)
    obtain ⟨xs, hxs, hf⟩ := hfib y
    rw [hf] at hw hne ⊢
    have hmem := held_zero_mem xs (held := v.held) (cell := v.cell) fun x hx => SpVal.held_once h2 hon (hxs x hx)
    have hw : if (xs.map v.held).length = 0 then w = 0 else JoinTree MinJoin posInf
      (if Multiset.card (((xs.map v.held).flatten : List V) : Multiset V) < (xs.map v.held).length
        then 0 ::ₘ (((xs.map v.held).flatten : List V) : Multiset V) else ((xs.map v.held).flatten : List V)) w := hw
    rw [if_neg (by rw [List.length_map]; intro h0; exact hne (by rw [List.length_eq_zero_iff.1 h0]; rfl))] at hw
    obtain ⟨t1, t2⟩ := minJoin_tree M hw
    have hlow : ∀ x ∈ xs.map v.cell, w ≤ x := fun x hx => t2 x ((hmem x).2 hx)
    refine ⟨?_, hlow⟩
    rcases t1 with t1 | t1
    · obtain ⟨d, hd⟩ := List.exists_mem_of_ne_nil _ hne
      obtain ⟨x, hx, rfl⟩ := List.mem_map.1 hd
      rw [le_antisymm (hlow _ hd) (t1 ▸ (hb x (hxs x hx)).2)]
      exact hd
    · exact (hmem w).1 t1
  · obtain ⟨hex, hall⟩ := py_reduce_any he hv hs h2 (op := .max) keep ha hne nofun
    refine ⟨hex, fun out ho => ?_⟩
    obtain ⟨r, e, hr⟩ := hall out ho
    refine ⟨r, e, hr.shape_eq, hr.size, fun y hy => ?_⟩
    obtain ⟨w, h1, hw⟩ := hr.cell y hy
    refine ⟨w, h1, ?_⟩
    have hne := hnonempty y (by rw [← hr.shape_eq]; exact hy)
    obtain ⟨xs, hxs, hf⟩ := hfib y
    rw [hf] at hw hne ⊢
    have hmem := held_zero_mem xs (held := v.held) (cell := v.cell) fun x hx => SpVal.held_once h2 hon (hxs x hx)
    have hw : if (xs.map v.held).length = 0 then w = 0 else JoinTree MaxJoin negInf
      (if Multiset.card (((xs.map v.held).flatten : List V) : Multiset V) < (xs.map v.held).length
        then 0 ::ₘ (((xs.map v.held).flatten : List V) : Multiset V) else ((xs.map v.held).flatten : List V)) w := hw
    rw [if_neg (by rw [List.length_map]; intro h0; exact hne (by rw [List.length_eq_zero_iff.1 h0]; rfl))] at hw
    obtain ⟨t1, t2⟩ := maxJoin_tree M hw
    have hlow : ∀ x ∈ xs.map v.cell, x ≤ w := fun x hx => t2 x ((hmem x).2 hx)
    refine ⟨?_, hlow⟩
    rcases t1 with t1 | t1
    · obtain ⟨d, hd⟩ := List.exists_mem_of_ne_nil _ hne
      obtain ⟨x, hx, rfl⟩ := List.mem_map.1 hd
      rw [le_antisymm (t1 ▸ (hb x (hxs x hx)).1) (hlow _ hd)]
      exact hd
    · exact (hmem w).1 t1

section
variable [Field V] [LinearOrder V] [IsStrictOrderedRing V] [FloorRing V] [BEq V] [LawfulBEq V] [HasFinite V]
  [HasFloor V] [HasPowf V] [HasAbs V] [HasLt V] [HasNan V] [IdealOrd V] [HasMinMax V] [HasSqrt V]

/-- C76: let the arithmetic be exact.  A program whose value is a matrix with cells and whose `COO` parts store
no coordinate twice, with `min` or `max` in the end: every run returns the smallest or largest cells of the
array the program denotes, if these lie between the two constants the loops start with. -/
theorem prog_minmax (hfin : ∀ v : V, isFinite v = true) (hfl : ∀ v : V, HasFloor.floor v = (⌊v⌋ : V)) (M : OrderMinMax V)
    {env : PyEnv V} (he : env.Ok) {e : Prog V} (hl : e.LitsOk) (hs : e.Small) (hx : e.Exact) {τ : Ty} (hc : e.check = .ok τ)
    (h2 : τ.Is2d) (hd : e.Distinct) (hpos : 0 < τ.shape.prod)
    (hb : ∀ x, InBounds τ.shape x → negInf ≤ e.cells x ∧ e.cells x ≤ posInf)
    {axis : AxisArg} (keep : Bool) (ha : axis.Valid 2) (hne : axis ≠ .many []) :
    ((∃ out, e.Reduce env .min axis keep out) ∧
      ∀ out, e.Reduce env .min axis keep out →
        ∃ r, out = .ret (.dense r) ∧ IsReduction τ.shape (axis.covers 2) keep IsMinOf e.cells r) ∧
    ((∃ out, e.Reduce env .max axis keep out) ∧
      ∀ out, e.Reduce env .max axis keep out →
        ∃ r, out = .ret (.dense r) ∧ IsReduction τ.shape (axis.covers 2) keep IsMaxOf e.cells r) := by
  obtain ⟨w, hv, hs', rfl, hon, hcell, hev⟩ := prog_value hfin hfl he hl hs hx hc
  obtain ⟨⟨⟨o1, ho1⟩, h1⟩, ⟨o2, ho2⟩, h2⟩ := py_minmax_within M he hv hs' h2 (hon hd) hpos
    (fun x hxb => by rw [hcell x hxb]; exact hb x hxb) keep ha hne
  refine ⟨⟨⟨o1, _, (hev _).2 rfl, ho1⟩, ?_⟩, ⟨o2, _, (hev _).2 rfl, ho2⟩, ?_⟩
  · rintro out ⟨o, ho, hout⟩
    rw [(hev o).1 ho] at hout
    obtain ⟨r, e1, hr⟩ := h1 out hout
    exact ⟨r, e1, isReduction_congr hr hcell⟩
  · rintro out ⟨o, ho, hout⟩
    rw [(hev o).1 ho] at hout
    obtain ⟨r, e1, hr⟩ := h2 out hout
    exact ⟨r, e1, isReduction_congr hr hcell⟩

end

section
attribute [local instance] meaningHasFinite meaningHasFloor meaningHasPowf meaningHasLt meaningHasAbs meaningHasNan meaningIdealOrd
local instance extMinMaxQ : HasMinMax ℚ := ⟨min, max, min, max, 1000, -1000⟩
local instance extSqrtQ : HasSqrt ℚ := ⟨id⟩

theorem extMinMaxQ_order : OrderMinMax ℚ where
  fmin_eq _ _ := rfl
  fmax_eq _ _ := rfl
  vmin_eq _ _ := rfl
  vmax_eq _ _ := rfl
  flt_iff _ _ := by simp [flt]

/-- `max(program, axis=1)` for the program of C74, `[[10, -2, -21], [-9/2, 0, 0]]`: the second row has no
positive cell and its maximum is a zero that may not be stored. -/
example (dbg : Bool) : (∃ out, exCalc.Reduce (exEnvQ dbg) .max (.one 1) false out) ∧
    ∀ out, exCalc.Reduce (exEnvQ dbg) .max (.one 1) false out →
      ∃ r, out = .ret (.dense r) ∧ r.shape = [2] ∧ r.data[0]? = some (10 : ℚ) ∧ r.data[1]? = some (0 : ℚ) := by
  have hb : ∀ x, InBounds (Ty.mat Fmt.csr 2 3).shape x → (negInf : ℚ) ≤ exCalc.cells x ∧ exCalc.cells x ≤ posInf := by
    intro x hx
    obtain ⟨i, j, hi, hj, rfl⟩ := inBounds_two (show InBounds [2, 3] x from hx)
    have key : ∀ i ∈ List.range 2, ∀ j ∈ List.range 3,
        (-1000 : ℚ) ≤ exCalc.cells [(i : Int), (j : Int)] ∧ exCalc.cells [(i : Int), (j : Int)] ≤ 1000 := by decide +kernel
    exact key i (List.mem_range.2 hi) j (List.mem_range.2 hj)
  obtain ⟨-, h1, h2⟩ := prog_minmax (fun _ => rfl) (fun _ => rfl) extMinMaxQ_order (exEnvQ_ok dbg) exCalc_lits exCalc_small
    exCalc_exact exCalc_type trivial (show exCalc.Distinct from trivial) (show 0 < 2 * (3 * 1) by decide) hb (axis := .one 1) false
    (by simp [AxisArg.Valid, AxisArg.ints]) (by simp)
  · refine ⟨h1, fun out h => ?_⟩
    obtain ⟨r, e, hr⟩ := h2 out h
    have hsh : r.shape = [2] := hr.shape_eq
    obtain ⟨r0, c0, p0, q0⟩ := hr.cell [0] (by rw [hsh]; exact .cons ⟨by omega, by omega⟩ .nil)
    obtain ⟨r1, c1, p1, q1⟩ := hr.cell [1] (by rw [hsh]; exact .cons ⟨by omega, by omega⟩ .nil)
    have f0 : fibre [2, 3] (AxisArg.covers 2 (.one 1)) false exCalc.cells [0] = [10, -2, -21] := by decide +kernel
    have f1 : fibre [2, 3] (AxisArg.covers 2 (.one 1)) false exCalc.cells [1] = [-9 / 2, 0, 0] := by decide +kernel
    rw [show (Ty.mat Fmt.csr 2 3).shape = [2, 3] from rfl] at p0 q0 p1 q1
    rw [f0] at p0 q0
    rw [f1] at p1 q1
    have e0 : r0 = 10 := by
      have := q0 10 (by simp)
      simp at p0
      rcases p0 with rfl | rfl | rfl
      · rfl
      · norm_num at this
      · norm_num at this
    have e1 : r1 = 0 := by
      have := q1 0 (by simp)
      simp at p1
      rcases p1 with rfl | rfl
      · norm_num at this
      · rfl
    rw [hsh] at c0 c1
    exact ⟨r, e, hsh, by rw [← e0]; exact c0, by rw [← e1]; exact c1⟩

end

end Lacuna
