import Verif.Spec.PyLinProg
import Verif.Lemmas.PyStatObj
import Verif.Props.PyLinalg
/-
From objects to the operands of the linear algebra functions, and their results as contractions.
-/
namespace Lacuna
variable {V : Type}

/-- The native matrix of a two-dimensional value. -/
def SpVal.toNative : SpVal V → Option (Native V)
  | .mat .csr a => some (.csr a.toCsr)
  | .mat .csc a => some (.csc a.toCsc)
  | .coo a => some (.coo a)
  | .nd _ => none

theorem SpVal.Good.sp {v : SpVal V} (h : v.Good) (h2 : v.ty.Is2d) :
    ∃ x a, v.obj.sp = some x ∧ v.toNative = some a ∧ x.Holds a ∧ a.Valid ∧ a.Fits ∧ v.ty.shape = [a.rows, a.cols] := by
  cases v with
  | mat f a =>
    have hp := h.held.nativeNew_false f
    cases f with
    | csr =>
      refine ⟨_, _, rfl, rfl, ⟨rfl, rfl, rfl, ?_⟩, h.held.wf.wfu, h.2, rfl⟩
      exact (nativeOf_csr _ _ _ _ _ false).trans (congrArg (Except.map fun c : Comp V => Native.csr c.toCsr) hp)
    | csc =>
      refine ⟨_, _, rfl, rfl, ⟨rfl, rfl, rfl, ?_⟩, h.held.wf.wfu, h.2, rfl⟩
      exact (nativeOf_csc _ _ _ _ _ false).trans (congrArg (Except.map fun c : Comp V => Native.csc c.toCsc) hp)
  | coo a =>
    refine ⟨_, _, rfl, rfl, ⟨rfl, rfl, rfl, ?_⟩, h.1, h.2, rfl⟩
    obtain ⟨⟨hw, -⟩, h1, h2, -⟩ := h
    have e1 : a.nrows ≤ usizeMax := by unfold i64Max at h1; unfold usizeMax; omega
    have e2 : a.ncols ≤ usizeMax := by unfold i64Max at h2; unfold usizeMax; omega
    show nativeOf .coo (a.nrows : Int) (a.ncols : Int) a.row a.col a.data false = _
    rw [nativeOf_coo (pyUsize_nat e1) (pyUsize_nat e2)]
    unfold Coo.fromParts
    rw [if_neg (by rw [hw.row_length, hw.col_length]; simp)]
    rfl
  | nd a => exact absurd h2 id

theorem SpVal.toNative_val [AddMonoid V] {v : SpVal V} {a : Native V} (h : v.toNative = some a) (i j : Nat) :
    a.val i j = v.cell [(i : Int), (j : Int)] := by
  cases v with
  | mat f c => cases f <;> cases h <;> rfl
  | coo c => cases h; rfl
  | nd c => cases h

/-! ### Contractions -/

section
variable [Semiring V]

theorem contracts_congr {r c : Nat} {f g : List Int → V} {p : Nat} {y out : DenseNd V} (hp : p < y.shape.length)
    (h : Contracts r c f p y out) (hfg : ∀ x, InBounds [r, c] x → f x = g x) : Contracts r c g p y out := by
  obtain ⟨h1, h2, h3⟩ := h
  refine ⟨h1, h2, fun z hz => ?_⟩
  rw [h3 z hz]
  refine congrArg _ (List.map_congr_left fun j hj => ?_)
  rw [hfg]
  have hzl : z.length = out.shape.length := hz.length_eq
  rw [h1, List.length_set] at hzl
  have hb := hz.get (i := p) (by omega) (by rw [h1, List.length_set]; exact hp)
  have e : (z.getD p 0) = z.get ⟨p, by omega⟩ := List.getD_eq_getElem _ _ (by omega)
  rw [e]
  have e2 : out.shape.get ⟨p, by rw [h1, List.length_set]; exact hp⟩ = r := by
    simp [h1]
  rw [e2] at hb
  exact .cons hb (.cons ⟨by omega, by have := List.mem_range.1 hj; omega⟩ .nil)

theorem contracts_vec {r c : Nat} {val : Nat → Nat → V} {f : List Int → V} (hf : ∀ i j : Nat, f [(i : Int), (j : Int)] = val i j)
    {y : DenseNd V} (hs : y.shape = [c]) :
    Contracts r c f 0 y ⟨[r], (List.range r).map fun i => ((List.range c).map fun j => val i j * y.data.getD j 0).sum⟩ := by
  refine ⟨by rw [hs]; rfl, by simp, fun z hz => ?_⟩
  cases hz with
  | @cons i _ is _ h1 h2 =>
  cases h2
  obtain ⟨k, rfl⟩ := Int.eq_ofNat_of_zero_le h1.1
  have hk : k < r := by have := h1.2; omega
  simp only [DenseNd.elem, hs]
  simp [rowMajor, hk, hf]

theorem contracts_tensordot {r c : Nat} {rest : List Nat} {val : Nat → Nat → V} {f : List Int → V}
    (hf : ∀ i j : Nat, f [(i : Int), (j : Int)] = val i j) {y : DenseNd V} (hs : y.shape = c :: rest) {out : List V}
    (h : IsTensordot r c rest val y.data out) : Contracts r c f 0 y ⟨r :: rest, out⟩ := by
  refine ⟨by rw [hs]; rfl, h.1, fun z hz => ?_⟩
  cases hz with
  | @cons i _ is _ h1 h2 =>
  obtain ⟨k, rfl⟩ := Int.eq_ofNat_of_zero_le h1.1
  have hk : k < r := by have := h1.2; omega
  have := h.2 k is hk h2
  simp only [DenseNd.elem, hs]
  rw [this]
  simp [hf]

theorem contracts_batch {r c n : Nat} {batch : List Nat} {val : Nat → Nat → V} {f : List Int → V}
    (hf : ∀ i j : Nat, f [(i : Int), (j : Int)] = val i j) {y : DenseNd V} (hs : y.shape = batch ++ [c, n]) {out : List V}
    (h : IsBatchProd batch r c n val y.data out) : Contracts r c f batch.length y ⟨batch ++ [r, n], out⟩ := by
  refine ⟨by rw [hs]; simp, h.1, fun z hz => ?_⟩
  have hz : InBounds (batch ++ [r, n]) z := hz
  have ht : InBounds batch (z.take batch.length) := List.forall₂_take_append _ _ _ hz
  have hd : InBounds [r, n] (z.drop batch.length) := List.forall₂_drop_append _ _ _ hz
  obtain ⟨i, k, hi, hk, e⟩ := inBounds_two hd
  have ez : z = z.take batch.length ++ [(i : Int), (k : Int)] := by rw [← e, List.take_append_drop]
  have hl : (z.take batch.length).length = batch.length := ht.length_eq
  have := h.2 _ i k ht hi hk
  simp only [DenseNd.elem, hs]
  rw [← ez] at this
  rw [this]
  generalize z.take batch.length = b at *
  subst ez
  rw [← hl]
  simp [hf]

end

/-! ### The indices that agree outside one axis -/

theorem restAxes_succ (n axis : Nat) : restAxes (n + 1) [axis + 1] = 0 :: (restAxes n [axis]).map (· + 1) := by
  unfold restAxes
  rw [List.range_succ_eq_map]
  simp [List.filter_map, Function.comp_def]

theorem restAxes_zero (n : Nat) : restAxes (n + 1) [0] = (List.range n).map (· + 1) := by
  unfold restAxes
  rw [List.range_succ_eq_map]
  simp [List.filter_map, Function.comp_def]

theorem select_restAxes {n axis : Nat} (h : axis < n) {x : List Int} (hx : x.length = n) :
    select (restAxes n [axis]) x = x.eraseIdx axis := by
  induction n generalizing axis x with
  | zero => omega
  | succ n ih =>
    cases x with
    | nil => simp at hx
    | cons i x =>
      have hx : x.length = n := by simpa using hx
      cases axis with
      | zero =>
        rw [restAxes_zero]
        simp only [select, List.map_map, List.eraseIdx_cons_zero]
        apply List.ext_getElem
        · simp [hx]
        · intro k h1 h2; simp at h1 ⊢; simp [h2]
      | succ axis =>
        rw [restAxes_succ, List.eraseIdx_cons_succ, ← ih (by omega) hx]
        simp [select, Function.comp_def]

theorem shape_restAxes {s : List Nat} {axis : Nat} (h : axis < s.length) :
    (restAxes s.length [axis]).map (fun d => s.getD d 0) = s.eraseIdx axis := by
  induction s generalizing axis with
  | nil => simp at h
  | cons d s ih =>
    cases axis with
    | zero =>
      rw [List.length_cons, restAxes_zero]
      simp only [List.map_map, List.eraseIdx_cons_zero]
      apply List.ext_getElem
      · simp
      · intro k h1 h2; simp at h1 ⊢; simp [h2]
    | succ axis =>
      rw [List.length_cons, restAxes_succ, List.eraseIdx_cons_succ, ← ih (by simpa using h)]
      simp [Function.comp_def]

theorem filter_eq_singleton {α : Type} [BEq α] [LawfulBEq α] {l : List α} (hn : l.Nodup) {a : α} (ha : a ∈ l) :
    l.filter (fun x => x == a) = [a] := by
  classical
  induction l with
  | nil => cases ha
  | cons b l ih =>
    rw [List.nodup_cons] at hn
    rcases List.mem_cons.1 ha with rfl | h
    · rw [List.filter_cons_of_pos (by simp), List.filter_eq_nil_iff.2]
      intro x hx hc
      exact hn.1 (by rw [← eq_of_beq hc]; exact hx)
    · rw [List.filter_cons_of_neg, ih hn.2 h]
      intro hc
      exact hn.1 (by rw [eq_of_beq hc]; exact h)

theorem indicesOf_fibre {s : List Nat} {axis : Nat} (h : axis < s.length) {u : List Int} (hu : InBounds (s.eraseIdx axis) u) :
    (indicesOf s).filter (fun x => select (restAxes s.length [axis]) x == u) =
      (List.range (s.getD axis 0)).map fun (j : Nat) => u.insertIdx axis (j : Int) := by
  have e0 : (indicesOf s).filter (fun x => select (restAxes s.length [axis]) x == u) =
      (indicesOf s).filter (fun x => x.eraseIdx axis == u) := by
    refine List.filter_congr fun x hx => ?_
    rw [select_restAxes h (mem_indicesOf.1 hx).length_eq]
  rw [e0]
  induction s generalizing axis u with
  | nil => simp at h
  | cons d s ih =>
    unfold indicesOf
    rw [List.filter_flatMap]
    cases axis with
    | zero =>
      have hu : InBounds s u := hu
      have hf : ∀ i : Nat, ((indicesOf s).map fun x => Int.ofNat i :: x).filter (fun x => x.eraseIdx 0 == u) = [(i : Int) :: u] := by
        intro i
        rw [List.filter_map]
        have : ((fun x : List Int => x.eraseIdx 0 == u) ∘ fun x => Int.ofNat i :: x) = fun x => x == u := rfl
        rw [this, filter_eq_singleton (indicesOf_nodup s) (mem_indicesOf.2 hu)]
        rfl
      simp only [hf, List.getD_cons_zero, List.insertIdx_zero]
      exact List.flatMap_pure_eq_map _ _
    | succ axis =>
      rw [List.eraseIdx_cons_succ] at hu
      cases hu with
      | @cons i _ u' _ h1 h2 =>
      obtain ⟨k, rfl⟩ := Int.eq_ofNat_of_zero_le h1.1
      have hk : k < d := by have := h1.2; omega
      have hax : axis < s.length := by simpa using h
      rw [flatMap_range_single hk]
      · simp only [List.filter_map, Function.comp_def, List.eraseIdx_cons_succ]
        have : (fun x : List Int => ((Int.ofNat k :: x.eraseIdx axis) == ((k : Int) :: u'))) = fun x => x.eraseIdx axis == u' := by
          funext x; simp [List.cons_beq_cons]
        rw [this, ih hax h2 (List.filter_congr fun x hx => by rw [select_restAxes hax (mem_indicesOf.1 hx).length_eq])]
        simp [Function.comp_def]
      · intro i _ hi
        rw [List.filter_eq_nil_iff]
        intro x hx
        obtain ⟨x', -, rfl⟩ := List.mem_map.1 hx
        rw [List.eraseIdx_cons_succ]
        intro hc
        have := (List.cons.inj (eq_of_beq hc)).1
        simp at this
        exact hi this

end Lacuna
