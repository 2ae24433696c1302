import Verif.Props.PyDotNd
import Verif.Lemmas.PyStatObj
import Verif.Lemmas.PyMeaningNd
/-
How many entries the products of a `COOND` with a dense array store.
-/
set_option linter.unusedSectionVars false

namespace Lacuna
variable {V : Type}

theorem wf_i64 {a : CooNd V} (h : a.WF) (hd : ∀ d ∈ a.shape, (d : Int) ≤ i64Max) : a.I64 := by
  intro i hi
  obtain ⟨t, ht, rfl⟩ := List.mem_iff_getElem.1 hi
  have hl := h.length
  have hn : 0 < a.shape.length := List.length_pos_of_ne_nil h.rank
  have hk : t / a.shape.length < a.data.length := Nat.div_lt_of_lt_mul (by rw [Nat.mul_comm, ← hl]; exact ht)
  have hm := Nat.mod_lt t hn
  obtain ⟨-, h2⟩ := h.bounds _ hk _ hm
  have e : a.coord (t / a.shape.length) (t % a.shape.length) = a.indices[t] := by
    unfold CooNd.coord
    rw [show t / a.shape.length * a.shape.length + t % a.shape.length = t by rw [Nat.mul_comm]; exact Nat.div_add_mod t _]
    simp [ht]
  rw [e] at h2
  have := hd _ (List.getElem_mem hm)
  omega

theorem inBounds_unsnoc {s : List Nat} {n : Nat} {x : List Int} (h : InBounds (s ++ [n]) x) :
    ∃ u k, InBounds s u ∧ k < n ∧ x = u ++ [((k : Nat) : Int)] := by
  induction s generalizing x with
  | nil =>
    cases h with
    | @cons a _ _ _ h1 h2 =>
      cases h2
      exact ⟨[], a.toNat, .nil, by have := h1.1; have := h1.2; omega, by rw [Int.toNat_of_nonneg h1.1]; rfl⟩
  | cons m s ih =>
    cases h with
    | cons h1 h2 =>
      obtain ⟨u, k, hu, hk, rfl⟩ := ih h2
      exact ⟨_ :: u, k, .cons h1 hu, hk, rfl⟩

/-- Canonical arrays store at most one value at each coordinate. -/
theorem sorted_length_le {r : CooNd V} (hs : r.Sorted) {L : List (List Int)} (h : ∀ e ∈ r.entries, e.1 ∈ L) :
    r.data.length ≤ L.length := by
  have hnd : (r.entries.map Prod.fst).Nodup := List.Pairwise.imp (fun hlt e => by subst e; exact lt_irrefl _ hlt) hs
  have hsub : r.entries.map Prod.fst ⊆ L := by
    intro x hx
    obtain ⟨e, he, rfl⟩ := List.mem_map.1 hx
    exact h e he
  have := (List.subperm_of_subset hnd hsub).length_le
  simpa [CooNd.entries] using this

section
variable [Zero V] [Add V] [Mul V] [BEq V]

theorem keptDot_some {l : List (V × V)} {v : V} (h : keptDot l = some v) : l ≠ [] := by
  rintro rfl
  cases h

theorem ndDotTerms_mem {st : List (List Int × V)} {axis : Nat} {y : DenseNd V} {u z : List Int} {v : V}
    (h : keptDot (ndDotTerms st axis y u z) = some v) : u ∈ st.map fun e => e.1.eraseIdx axis := by
  obtain ⟨q, hq⟩ := List.exists_mem_of_ne_nil _ (keptDot_some h)
  unfold ndDotTerms at hq
  obtain ⟨e, he, -⟩ := List.mem_map.1 hq
  obtain ⟨h1, h2⟩ := List.mem_filter.1 he
  exact List.mem_map.2 ⟨e, h1, by simpa using h2⟩

variable [HasFma V]

/-- C97: the result of `tensordot` with a `COOND` stores at most as many values as the products of the stored values with the
elements of one slice of the dense operand; it is an object that programs and sessions can go on with. -/
theorem tensordot_nd_good {env : PyEnv V} (he : env.Ok) {a : CooNd V} (hg : (SpVal.nd a).Good) {axes : AxesArg} {axis : Nat}
    (hax : axis < a.shape.length) (hnd : (LinFn.tensordot axes).NdContraction a.shape.length axis) {y : DenseNd V} (hy : y.Ok)
    {rest : List Nat} (hys : y.shape = a.shape.getD axis 0 :: rest) (hpos : 0 < rest.prod)
    (hcells : (((a.shape.eraseIdx axis).prod * rest.prod : Nat) : Int) ≤ i64Max)
    (hmem : 24 * ((a.data.length * a.shape.length * rest.prod : Nat) : Int) ≤ i64Max) :
    ∃ r : CooNd V, (SpVal.nd r).Good ∧ r.data.length ≤ a.data.length * rest.prod ∧
      ∀ out, LinSparseDense env (.tensordot axes) (SpVal.nd a).obj y out ↔ out = .ret (.sparse (SpVal.nd r).obj) := by
  obtain ⟨r, h1, hwf, hsort, hsh, hent⟩ := py_tensordot_nd_any he hg.1 hg.2 hax hnd hy hys hpos hcells hmem
  obtain ⟨-, -, hp0, -⟩ := good_nd hg
  have he0 : 0 < (a.shape.eraseIdx axis).prod := Nat.pos_of_dvd_of_pos (List.eraseIdx_sublist a.shape axis).prod_dvd_prod hp0
  have hprod : r.shape.prod = (a.shape.eraseIdx axis).prod * rest.prod := by rw [hsh]; simp
  have hlen : r.shape.length = a.shape.length := by
    rw [hsh, List.length_append, List.length_eraseIdx_of_lt hax, List.length_singleton]; omega
  have hn : r.data.length ≤ a.data.length * rest.prod := by
    have key := sorted_length_le (L := (a.entries.map fun e => e.1.eraseIdx axis).flatMap fun u =>
      (List.range rest.prod).map fun k : Nat => u ++ [(k : Int)]) hsort fun e hm => by
        have hb := hwf.entries_inBounds e hm
        rw [hsh] at hb
        obtain ⟨u, k, hu, hk, e1⟩ := inBounds_unsnoc hb
        obtain ⟨hz, hzk⟩ := unravel_spec hk
        have hm' : (u ++ [(rowMajor rest (unravel rest k) : Int)], e.2) ∈ r.entries := by rw [hzk, ← e1]; exact hm
        have := ndDotTerms_mem ((hent u _ hu hz e.2).1 hm').1
        rw [e1]
        exact List.mem_flatMap.2 ⟨u, this, List.mem_map.2 ⟨k, List.mem_range.2 hk, rfl⟩⟩
    refine le_trans key (le_of_eq ?_)
    have hc : ∀ L : List (List Int), (L.flatMap fun u => (List.range rest.prod).map fun k : Nat => u ++ [(k : Int)]).length =
        L.length * rest.prod := by
      intro L
      induction L with
      | nil => simp
      | cons u L ih => rw [List.flatMap_cons, List.length_append, ih]; simp [Nat.succ_mul, Nat.add_comm]
    rw [hc]
    simp [CooNd.entries]
  have hpr : 0 < r.shape.prod := by rw [hprod]; exact Nat.mul_pos he0 hpos
  have hpi : (r.shape.prod : Int) ≤ i64Max := by rw [hprod]; exact hcells
  have hl0 : 0 < a.shape.length := by omega
  refine ⟨r, ⟨⟨hwf, wf_i64 hwf fun d hd => le_trans (by exact_mod_cast le_prod_of_mem hpr hd) hpi⟩, hpr, hpi, ?_, ?_⟩, hn, h1⟩
  · refine le_trans ?_ hmem
    have : r.data.length ≤ a.data.length * a.shape.length * rest.prod :=
      le_trans hn (Nat.mul_le_mul_right _ (Nat.le_mul_of_pos_right _ hl0))
    show 24 * ((r.data.length : Nat) : Int) ≤ _
    omega
  · refine le_trans ?_ hmem
    have : r.data.length * r.shape.length ≤ a.data.length * a.shape.length * rest.prod := by
      rw [hlen, Nat.mul_right_comm a.data.length]
      exact Nat.mul_le_mul_right _ hn
    show 8 * ((r.data.length * r.shape.length : Nat) : Int) ≤ _
    omega

/-- The same for `vecdot`. -/
theorem vecdot_nd_good {env : PyEnv V} (he : env.Ok) {a : CooNd V} (hg : (SpVal.nd a).Good) {ax : Option Int} {axis : Nat}
    (hax : axis < a.shape.length) (hrank : 1 < a.shape.length) (hnd : (LinFn.vecdot ax).NdContraction a.shape.length axis)
    {y : DenseNd V} (hy : y.Ok) (hys : y.shape = [a.shape.getD axis 0]) :
    ∃ r : CooNd V, (SpVal.nd r).Good ∧ r.data.length ≤ a.data.length ∧
      ∀ out, LinSparseDense env (.vecdot ax) (SpVal.nd a).obj y out ↔ out = .ret (.sparse (SpVal.nd r).obj) := by
  obtain ⟨r, h1, hwf, hsort, hsh, hent⟩ := py_vecdot_nd_any he hg.1 hg.2 hax hrank hnd hy hys
  obtain ⟨-, -, hp0, -⟩ := good_nd hg
  obtain ⟨-, -, hpi, hb1, hb2⟩ := hg
  have hdvd := (List.eraseIdx_sublist a.shape axis).prod_dvd_prod
  have hpr : 0 < r.shape.prod := by rw [hsh]; exact Nat.pos_of_dvd_of_pos hdvd hp0
  have hpi' : (r.shape.prod : Int) ≤ i64Max := by
    rw [hsh]
    have := Nat.le_of_dvd hp0 hdvd
    have hpi : (a.shape.prod : Int) ≤ i64Max := hpi
    omega
  have hn : r.data.length ≤ a.data.length := by
    have := sorted_length_le (L := a.entries.map fun e => e.1.eraseIdx axis) hsort fun e hm =>
      ndDotTerms_mem ((hent e.1 e.2).1 hm)
    simpa [CooNd.entries] using this
  have hlen : r.shape.length ≤ a.shape.length := by rw [hsh]; exact List.length_eraseIdx_le _ _
  refine ⟨r, ⟨⟨hwf, wf_i64 hwf fun d hd => le_trans (by exact_mod_cast le_prod_of_mem hpr hd) hpi'⟩, hpr, hpi', ?_, ?_⟩, hn, h1⟩
  · have hb1 : 24 * ((a.data.length : Nat) : Int) ≤ i64Max := hb1
    show 24 * ((r.data.length : Nat) : Int) ≤ _
    omega
  · have hb2 : 8 * ((a.data.length * a.shape.length : Nat) : Int) ≤ i64Max := hb2
    have := Nat.mul_le_mul hn hlen
    show 8 * ((r.data.length * r.shape.length : Nat) : Int) ≤ _
    omega

end
end Lacuna
