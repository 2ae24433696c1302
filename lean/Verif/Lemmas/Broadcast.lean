import Verif.Model.Broadcast
import Verif.Lemmas.NdShape
import Verif.Lemmas.Scalar
import Mathlib.Algebra.Ring.Defs
import Mathlib.Algebra.BigOperators.Ring.List
namespace Lacuna
universe u w
variable {V : Type u}

/-! ### Shapes and coordinates, dimension by dimension -/

/-- Two padded shapes can be broadcast. -/
def BCompat (ash bsh : List Nat) : Prop := List.Forall₂ (fun x y => x = y ∨ x = 1 ∨ y = 1) ash bsh

theorem broadcastShape?_some {ash bsh : List Nat} (hc : BCompat ash bsh) :
    broadcastShape? ash bsh = some (List.zipWith max ash bsh) := by
  induction hc with
  | nil => rfl
  | cons h _ ih => rw [broadcastShape?, if_neg (by omega), ih]; rfl

theorem broadcastShape?_compat {ash bsh out : List Nat} (hl : ash.length = bsh.length)
    (h : broadcastShape? ash bsh = some out) : BCompat ash bsh := by
  induction ash generalizing bsh out with
  | nil => cases bsh with
    | nil => exact .nil
    | cons _ _ => simp at hl
  | cons x xs ih => cases bsh with
    | nil => simp at hl
    | cons y ys =>
      rw [broadcastShape?] at h
      split at h
      · cases h
      · rename_i hxy
        rw [Option.map_eq_some_iff] at h
        obtain ⟨o, h, _⟩ := h
        exact .cons (by omega) (ih (by simpa using hl) h)

/-- Elements selected by a mask. -/
def maskSel {α : Type w} : List Bool → List α → List α
  | true :: m, x :: l => x :: maskSel m l
  | false :: m, _ :: l => maskSel m l
  | _, _ => []

theorem maskSel_sublist {α : Type w} (m : List Bool) (l : List α) : (maskSel m l).Sublist l := by
  induction m generalizing l with
  | nil => cases l <;> simp [maskSel]
  | cons b m ih => cases l with
    | nil => cases b <;> simp [maskSel]
    | cons x l => cases b
                  · exact (ih l).cons x
                  · exact (ih l).cons_cons x

theorem prod_sublist_le {l l' : List Nat} (h : l.Sublist l') (hpos : 0 < l'.prod) : l.prod ≤ l'.prod := by
  induction h with
  | slnil => simp
  | cons x h ih =>
    rw [List.prod_cons] at *
    exact Nat.le_trans (ih (Nat.pos_of_mul_pos_left hpos)) (Nat.le_mul_of_pos_left _ (Nat.pos_of_mul_pos_right hpos))
  | cons_cons x h ih =>
    rw [List.prod_cons] at *
    rw [List.prod_cons]
    exact Nat.mul_le_mul_left _ (ih (Nat.pos_of_mul_pos_left hpos))

theorem inBounds_maskSel {shape : List Nat} {x : List Int} (h : InBounds shape x) (m : List Bool) :
    InBounds (maskSel m shape) (maskSel m x) := by
  induction shape generalizing x m with
  | nil => cases h; cases m with
    | nil => exact .nil
    | cons b m => cases b <;> exact .nil
  | cons s ss ih => cases x with
    | nil => cases h
    | cons i is =>
      rw [inBounds_cons] at h
      cases m with
      | nil => exact .nil
      | cons b m => cases b
                    · exact ih h.2 m
                    · exact inBounds_cons.2 ⟨h.1, ih h.2 m⟩

/-- Strides of the intersection dimensions. -/
theorem interStrides?_spec (m : List Bool) (out : List Nat) (hpos : 0 < out.prod) (hle : out.prod ≤ usizeMax)
    (hl : m.length = out.length) :
    ∃ st, interStrides? m out = some (st, (maskSel m out).prod) ∧ st.length = out.length ∧
      maskSel m st = sufProds (maskSel m out) := by
  induction m generalizing out with
  | nil => cases out with
    | nil => exact ⟨[], rfl, rfl, rfl⟩
    | cons _ _ => simp at hl
  | cons b m ih => cases out with
    | nil => simp at hl
    | cons n out =>
      have hpos' := hpos
      rw [List.prod_cons] at hpos hle
      have hp := Nat.pos_of_mul_pos_left hpos
      have hle' : out.prod ≤ usizeMax := Nat.le_trans (Nat.le_mul_of_pos_left _ (Nat.pos_of_mul_pos_right hpos)) hle
      obtain ⟨st, h1, h2, h3⟩ := ih out hp hle' (by simpa using hl)
      rw [interStrides?, h1]
      cases b with
      | false => exact ⟨0 :: st, rfl, by simp [h2], h3⟩
      | true =>
        have hsub := prod_sublist_le (maskSel_sublist (true :: m) (n :: out)) hpos'
        simp only [maskSel, List.prod_cons] at hsub
        refine ⟨(maskSel m out).prod :: st, ?_, by simp [h2], ?_⟩
        · simp only [Option.bind_some, if_true]
          rw [checkedMul_eq (by rw [Nat.mul_comm]; omega)]
          simp [maskSel, List.prod_cons, Nat.mul_comm]
        · simp only [maskSel, sufProds, h3]

theorem keyLoop_eq (m : List Bool) (x : List Int) (st : List Nat) (ishape : List Nat) (key : Nat)
    (hlx : x.length = m.length) (hls : st.length = m.length)
    (hst : maskSel m st = sufProds ishape) (hb : InBounds ishape (maskSel m x))
    (hle : key + ishape.prod ≤ usizeMax + 1) (hfit : ∀ i ∈ x, i ≤ i64Max) :
    keyLoop m x st key = some (key + rowMajor ishape (maskSel m x)) := by
  induction m generalizing x st ishape key with
  | nil =>
    cases x <;> cases st <;> simp at hlx hls
    simp only [maskSel] at hb
    cases hb; simp [keyLoop, rowMajor]
  | cons b m ih =>
    cases x with
    | nil => simp at hlx
    | cons i x => cases st with
      | nil => simp at hls
      | cons s st =>
        cases b with
        | false =>
          simp only [keyLoop, maskSel] at *
          exact ih x st ishape key (by simpa using hlx) (by simpa using hls) hst hb hle
            (fun j hj => hfit j (by simp [hj]))
        | true =>
          cases ishape with
          | nil => simp [maskSel, sufProds] at hst
          | cons n ns =>
            simp only [maskSel, sufProds, List.cons.injEq] at hst
            simp only [maskSel] at hb
            rw [inBounds_cons] at hb
            obtain ⟨hs1, hs2⟩ := hst
            have hlt := rowMajor_lt hb.2
            have hc : i64ToUsize i = i.toNat := by
              unfold i64ToUsize
              rw [Int.emod_eq_of_lt hb.1.1 (by have := hfit i (by simp); unfold i64Max at this; omega)]
            have h1 : i.toNat + 1 ≤ n := by omega
            have h2 := Nat.mul_le_mul_right ns.prod h1
            rw [Nat.add_mul, Nat.one_mul] at h2
            rw [List.prod_cons] at hle
            subst hs1
            simp only [keyLoop, if_true, hc]
            rw [checkedMul_eq (by omega)]
            simp only [Option.bind_some]
            rw [checkedAdd_eq (by omega)]
            simp only [Option.bind_some]
            rw [ih x st ns _ (by simpa using hlx) (by simpa using hls) hs2 hb.2 (by omega)
              (fun j hj => hfit j (by simp [hj]))]
            simp only [maskSel, rowMajor]
            congr 1; omega

theorem linLoop_eq (x : List Int) (shape : List Nat) (lin : Nat) (hb : InBounds shape x)
    (hle : lin + shape.prod ≤ usizeMax + 1) (hfit : ∀ i ∈ x, i ≤ i64Max) :
    linLoop x (sufProds shape) lin = some (lin + rowMajor shape x) := by
  induction shape generalizing x lin with
  | nil => cases hb; simp [linLoop, rowMajor]
  | cons n ns ih => cases x with
    | nil => cases hb
    | cons i is =>
      rw [inBounds_cons] at hb
      have hlt := rowMajor_lt hb.2
      have hc : i64ToUsize i = i.toNat := by
        unfold i64ToUsize
        rw [Int.emod_eq_of_lt hb.1.1 (by have := hfit i (by simp); unfold i64Max at this; omega)]
      have h1 : i.toNat + 1 ≤ n := by omega
      have h2 := Nat.mul_le_mul_right ns.prod h1
      rw [Nat.add_mul, Nat.one_mul] at h2
      rw [List.prod_cons] at hle
      simp only [sufProds, linLoop, hc]
      rw [checkedMul_eq (by omega)]
      simp only [Option.bind_some]
      rw [checkedAdd_eq (by omega)]
      simp only [Option.bind_some]
      rw [ih is _ hb.2 (by omega) (fun j hj => hfit j (by simp [hj])), rowMajor]
      congr 1; omega

/-- The index of the padded operand that an output index reads: broadcast dimensions 0. -/
def bidx (ash : List Nat) (y : List Int) : List Int :=
  List.zipWith (fun (s : Nat) (i : Int) => if s = 1 then 0 else i) ash y

theorem out_pos {ash bsh : List Nat} (hc : BCompat ash bsh) (ha : 0 < ash.prod) (hb : 0 < bsh.prod) :
    0 < (List.zipWith max ash bsh).prod := by
  induction hc with
  | nil => simp
  | cons h _ ih =>
    rw [List.prod_cons] at ha hb
    simp only [List.zipWith_cons_cons, List.prod_cons]
    exact Nat.mul_pos (by have := Nat.pos_of_mul_pos_right ha; omega)
      (ih (Nat.pos_of_mul_pos_left ha) (Nat.pos_of_mul_pos_left hb))

theorem pick_inBounds {ash bsh : List Nat} (hc : BCompat ash bsh) {x y : List Int}
    (hx : InBounds ash x) (hy : InBounds bsh y) :
    InBounds (List.zipWith max ash bsh) (pickCoord ash x y) := by
  induction hc generalizing x y with
  | nil => cases hx; cases hy; exact .nil
  | cons h _ ih =>
    cases x with
    | nil => cases hx
    | cons i x => cases y with
      | nil => cases hy
      | cons j y =>
        rw [inBounds_cons] at hx hy
        simp only [List.zipWith_cons_cons, pickCoord]
        rw [inBounds_cons]
        refine ⟨?_, ih hx.2 hy.2⟩
        split <;> omega

theorem pick_i64 (ash : List Nat) {x y : List Int} (hx : ∀ i ∈ x, i ≤ i64Max) (hy : ∀ i ∈ y, i ≤ i64Max) :
    ∀ i ∈ pickCoord ash x y, i ≤ i64Max := by
  induction ash generalizing x y with
  | nil => simp [pickCoord]
  | cons s ash ih => cases x with
    | nil => simp [pickCoord]
    | cons i x => cases y with
      | nil => simp [pickCoord]
      | cons j y =>
        intro k hk
        simp only [pickCoord, List.mem_cons] at hk
        rcases hk with rfl | hk
        · split
          · exact hy j (by simp)
          · exact hx i (by simp)
        · exact ih (fun i hi => hx i (by simp [hi])) (fun i hi => hy i (by simp [hi])) k hk

theorem bidx_inBounds {ash bsh : List Nat} (hc : BCompat ash bsh) (ha : 0 < ash.prod) {y : List Int}
    (hy : InBounds (List.zipWith max ash bsh) y) : InBounds ash (bidx ash y) := by
  induction hc generalizing y with
  | nil => cases hy; exact .nil
  | cons h _ ih =>
    cases y with
    | nil => cases hy
    | cons j y =>
      rw [List.prod_cons] at ha
      simp only [List.zipWith_cons_cons] at hy
      rw [inBounds_cons] at hy
      unfold bidx
      rw [List.zipWith_cons_cons, inBounds_cons]
      have := Nat.pos_of_mul_pos_right ha
      refine ⟨?_, ih (Nat.pos_of_mul_pos_left ha) hy.2⟩
      split <;> omega

theorem BCompat.symm {ash bsh : List Nat} (h : BCompat ash bsh) : BCompat bsh ash := by
  induction h with
  | nil => exact .nil
  | cons h _ ih => exact .cons (by omega) ih

theorem zipWith_max_comm (ash bsh : List Nat) : List.zipWith max ash bsh = List.zipWith max bsh ash := by
  induction ash generalizing bsh with
  | nil => cases bsh <;> rfl
  | cons x xs ih => cases bsh with
    | nil => rfl
    | cons y ys => simp [ih ys, Nat.max_comm]

/-- A pair of operand indices that agree on the intersection dimensions is combined into `y`
exactly when they are the indices `y` reads. -/
theorem pick_eq_iff {ash bsh : List Nat} (hc : BCompat ash bsh) {x z y : List Int}
    (hx : InBounds ash x) (hz : InBounds bsh z) (hy : InBounds (List.zipWith max ash bsh) y) :
    (maskSel (interMask ash bsh) x = maskSel (interMask ash bsh) z ∧ pickCoord ash x z = y) ↔
      x = bidx ash y ∧ z = bidx bsh y := by
  induction hc generalizing x z y with
  | nil => cases hx; cases hz; cases hy; simp [interMask, maskSel, pickCoord, bidx]
  | cons h _ ih =>
    rename_i s t ash bsh _
    cases x with
    | nil => cases hx
    | cons i x => cases z with
      | nil => cases hz
      | cons j z => cases y with
        | nil => cases hy
        | cons k y =>
          simp only [List.zipWith_cons_cons] at hy
          rw [inBounds_cons] at hx hz hy
          have := ih hx.2 hz.2 hy.2
          simp only [interMask, bidx] at this
          simp only [interMask, List.zipWith_cons_cons, pickCoord, bidx]
          by_cases hm : s ≠ 1 ∧ t ≠ 1
          · rw [decide_eq_true hm]
            simp only [maskSel, List.cons.injEq, if_neg hm.1, if_neg hm.2]
            constructor
            · rintro ⟨⟨h1, h2⟩, h3, h4⟩
              have := this.1 ⟨h2, h4⟩
              exact ⟨⟨h3, this.1⟩, by rw [← h1, h3], this.2⟩
            · rintro ⟨⟨h1, h2⟩, h3, h4⟩
              have := this.2 ⟨h2, h4⟩
              exact ⟨⟨by rw [h1, h3], this.1⟩, h1, this.2⟩
          · rw [decide_eq_false hm]
            simp only [maskSel, List.cons.injEq]
            have hm' : s = 1 ∨ t = 1 := by omega
            by_cases hs : s = 1
            · rw [if_pos hs, if_pos hs]
              have hi : i = 0 := by omega
              by_cases ht : t = 1
              · rw [if_pos ht]
                have hj : j = 0 := by omega
                have hk : k = 0 := by have := hy.1; rw [hs, ht] at this; simp at this; omega
                constructor
                · rintro ⟨h1, h2, h3⟩
                  have := this.1 ⟨h1, h3⟩
                  exact ⟨⟨hi, this.1⟩, hj, this.2⟩
                · rintro ⟨⟨h1, h2⟩, h3, h4⟩
                  have := this.2 ⟨h2, h4⟩
                  exact ⟨this.1, by omega, this.2⟩
              · rw [if_neg ht]
                constructor
                · rintro ⟨h1, h2, h3⟩
                  have := this.1 ⟨h1, h3⟩
                  exact ⟨⟨hi, this.1⟩, h2, this.2⟩
                · rintro ⟨⟨h1, h2⟩, h3, h4⟩
                  have := this.2 ⟨h2, h4⟩
                  exact ⟨this.1, h3, this.2⟩
            · have ht : t = 1 := by omega
              have hj : j = 0 := by omega
              rw [if_neg hs, if_neg hs, if_pos ht]
              constructor
              · rintro ⟨h1, h2, h3⟩
                have := this.1 ⟨h1, h3⟩
                exact ⟨⟨h2, this.1⟩, hj, this.2⟩
              · rintro ⟨⟨h1, h2⟩, h3, h4⟩
                have := this.2 ⟨h2, h4⟩
                exact ⟨this.1, h1, this.2⟩

/-! ### Two-level accumulation -/

/-- Accumulating each part in its own map, then all the resulting pairs in one map, gives
the same sums as accumulating everything (commutative addition). -/
theorem two_level [AddCommMonoid V] (parts : List (List (Nat × V)))
    (hlt : ∀ p ∈ parts, ∀ e ∈ p, e.1 < usizeMax) (cap : Nat) :
    ∃ ms, parts.mapM (fun ops => ((HMap.withCapacity cap : HMap V).insertAll ops).map fun m => m.pairs) = some ms ∧
      (∀ e ∈ ms.flatten, ∃ p ∈ parts, ∃ v, (e.1, v) ∈ p) ∧
      (∀ p ∈ parts, ∀ e ∈ p, ∃ v, (e.1, v) ∈ ms.flatten) ∧
      ∀ k, ((ms.flatten.filter fun e => e.1 == k).map Prod.snd).sum =
        ((parts.flatten.filter fun e => e.1 == k).map Prod.snd).sum := by
  induction parts with
  | nil => exact ⟨[], rfl, by simp, by simp, by simp⟩
  | cons p parts ih =>
    obtain ⟨ms, h1, h2, h3, h4⟩ := ih (fun q hq => hlt q (by simp [hq]))
    obtain ⟨m, e1, e2, e3, -⟩ := HMap.hashmap_correct cap p (hlt p (by simp))
    refine ⟨m.pairs :: ms, ?_, ?_, ?_, ?_⟩
    · rw [List.mapM_cons, e1, h1]; rfl
    · intro e he
      rw [List.flatten_cons, List.mem_append] at he
      rcases he with he | he
      · obtain ⟨v, hv⟩ := exists_of_total ((e3 e.1 e.2).1 he)
        exact ⟨p, by simp, v, hv⟩
      · obtain ⟨q, hq, h⟩ := h2 e he
        exact ⟨q, by simp [hq], h⟩
    · intro q hq e he
      rcases List.mem_cons.1 hq with rfl | hq
      · obtain ⟨v, hv⟩ := total_of_mem (k := e.1) (v := e.2) he
        exact ⟨v, by rw [List.flatten_cons, List.mem_append]; exact .inl ((e3 e.1 v).2 hv)⟩
      · obtain ⟨v, hv⟩ := h3 q hq e he
        exact ⟨v, by rw [List.flatten_cons, List.mem_append]; exact .inr hv⟩
    · intro k
      rw [List.flatten_cons, List.flatten_cons, List.filter_append, List.filter_append, List.map_append,
        List.map_append, List.sum_append, List.sum_append, h4 k,
        sum_filter_key e2 (fun v => e3 k v), total_getD]

theorem sum_filter_ite [AddMonoid V] {α : Type w} (l : List α) (p : α → Bool) (f : α → V) :
    ((l.filter p).map f).sum = (l.map fun x => if p x then f x else 0).sum := by
  induction l with
  | nil => rfl
  | cons x l ih =>
    rw [List.filter_cons]
    by_cases h : p x
    · simp [h, ih]
    · simp [h, ih]

theorem sum_map_zero [AddMonoid V] {α : Type w} (l : List α) : (l.map fun _ => (0 : V)).sum = 0 := by
  induction l with
  | nil => rfl
  | cons x l ih => rw [List.map_cons, List.sum_cons, ih, zero_add]

theorem sum_map_ite_key [AddMonoid V] {K : Type w} [DecidableEq K] (I : List K) (hI : I.Nodup) (k : K) (v : V) :
    (I.map fun x => if x = k then v else 0).sum = if k ∈ I then v else 0 := by
  induction I with
  | nil => simp
  | cons x I ih =>
    rw [List.nodup_cons] at hI
    rw [List.map_cons, List.sum_cons, ih hI.2]
    by_cases h : x = k
    · subst h; simp [hI.1]
    · have : k ∈ x :: I ↔ k ∈ I := by simp [Ne.symm h]
      simp [h, this]

end Lacuna

namespace Lacuna
universe u w
variable {V : Type u}

theorem sum_filter_flatten [AddMonoid V] {α : Type w} (L : List (List α)) (p : α → Bool) (f : α → V) :
    ((L.flatten.filter p).map f).sum = (L.map fun l => ((l.filter p).map f).sum).sum := by
  induction L with
  | nil => rfl
  | cons l L ih =>
    rw [List.flatten_cons, List.filter_append, List.map_append, List.sum_append, ih, List.map_cons, List.sum_cons]

theorem mask_shape {ash bsh : List Nat} (hc : BCompat ash bsh) :
    maskSel (interMask ash bsh) ash = maskSel (interMask ash bsh) (List.zipWith max ash bsh) ∧
    maskSel (interMask ash bsh) bsh = maskSel (interMask ash bsh) (List.zipWith max ash bsh) := by
  induction hc with
  | nil => exact ⟨rfl, rfl⟩
  | cons h _ ih =>
    rename_i s t _ _ _
    simp only [interMask, List.zipWith_cons_cons] at ih ⊢
    by_cases hm : s ≠ 1 ∧ t ≠ 1
    · rw [decide_eq_true hm]
      have h1 : s = t := by omega
      subst h1
      simp only [maskSel, ih.1, ih.2, Nat.max_self, and_self]
    · rw [decide_eq_false hm]
      simp only [maskSel]
      exact ih

/-- The intersection key of a padded index. -/
def ikey (ash bsh : List Nat) (x : List Int) : Nat :=
  rowMajor (maskSel (interMask ash bsh) (List.zipWith max ash bsh)) (maskSel (interMask ash bsh) x)

theorem ikey_eq_iff {ash bsh : List Nat} (hc : BCompat ash bsh) {x z : List Int}
    (hx : InBounds ash x) (hz : InBounds bsh z) :
    ikey ash bsh x = ikey ash bsh z ↔
      maskSel (interMask ash bsh) x = maskSel (interMask ash bsh) z := by
  have h1 := inBounds_maskSel hx (interMask ash bsh)
  have h2 := inBounds_maskSel hz (interMask ash bsh)
  rw [(mask_shape hc).1] at h1
  rw [(mask_shape hc).2] at h2
  exact ⟨fun h => rowMajor_inj h1 h2 h, fun h => by unfold ikey; rw [h]⟩

/-- Products contributed by one key. -/
def kprods [Mul V] (ash bsh : List Nat) (PA PB : List (List Int × V)) (k : Nat) : List (Nat × V) :=
  ((PA.filter fun e => ikey ash bsh e.1 == k).map fun ea =>
    (PB.filter fun e => ikey ash bsh e.1 == k).map fun eb =>
      (rowMajor (List.zipWith max ash bsh) (pickCoord ash ea.1 eb.1), ea.2 * eb.2)).flatten

theorem kprods_sum [NonUnitalNonAssocSemiring V] {ash bsh : List Nat} (hc : BCompat ash bsh)
    {PA PB : List (List Int × V)} (hA : ∀ e ∈ PA, InBounds ash e.1) (hB : ∀ e ∈ PB, InBounds bsh e.1)
    {y : List Int} (hy : InBounds (List.zipWith max ash bsh) y) (k : Nat) :
    (((kprods ash bsh PA PB k).filter fun e => e.1 == rowMajor (List.zipWith max ash bsh) y).map Prod.snd).sum =
      if k = ikey ash bsh (bidx ash y) then
        ((PA.filter fun e => e.1 == bidx ash y).map Prod.snd).sum *
        ((PB.filter fun e => e.1 == bidx bsh y).map Prod.snd).sum
      else 0 := by
  unfold kprods
  rw [sum_filter_flatten, List.map_map]
  have inner : ∀ ea ∈ PA.filter (fun e => ikey ash bsh e.1 == k),
      ((fun l : List (Nat × V) => ((l.filter fun e => e.1 == rowMajor (List.zipWith max ash bsh) y).map Prod.snd).sum) ∘
        fun ea => (PB.filter fun e => ikey ash bsh e.1 == k).map fun eb =>
          (rowMajor (List.zipWith max ash bsh) (pickCoord ash ea.1 eb.1), ea.2 * eb.2)) ea =
      if ea.1 = bidx ash y then ea.2 * ((PB.filter fun e => e.1 == bidx bsh y).map Prod.snd).sum else 0 := by
    intro ea hea
    rw [List.mem_filter, beq_iff_eq] at hea
    have hea1 := hA ea hea.1
    simp only [Function.comp]
    rw [List.filter_map, List.map_map, List.filter_filter, sum_filter_ite]
    by_cases hx : ea.1 = bidx ash y
    · rw [if_pos hx, sum_filter_ite, ← List.sum_map_mul_left]
      congr 1
      apply List.map_congr_left
      intro eb heb
      have heb1 := hB eb heb
      have hiff := pick_eq_iff hc hea1 heb1 hy
      have hkk : ikey ash bsh eb.1 = k ↔ maskSel (interMask ash bsh) ea.1 = maskSel (interMask ash bsh) eb.1 := by
        rw [← ikey_eq_iff hc hea1 heb1, hea.2]; exact eq_comm
      have hrm : rowMajor (List.zipWith max ash bsh) (pickCoord ash ea.1 eb.1) =
          rowMajor (List.zipWith max ash bsh) y ↔ pickCoord ash ea.1 eb.1 = y :=
        ⟨fun h => rowMajor_inj (pick_inBounds hc hea1 heb1) hy h, fun h => by rw [h]⟩
      simp only [Function.comp, Bool.and_eq_true, beq_iff_eq, hrm, hkk]
      by_cases hb : eb.1 = bidx bsh y
      · have := hiff.2 ⟨hx, hb⟩
        rw [if_pos ⟨this.2, this.1⟩, if_pos hb]
      · rw [if_neg (fun h => hb (hiff.1 ⟨h.2, h.1⟩).2), if_neg hb, mul_zero]
    · rw [if_neg hx]
      refine Eq.trans ?_ (sum_map_zero PB)
      congr 1
      apply List.map_congr_left
      intro eb heb
      have heb1 := hB eb heb
      have hiff := pick_eq_iff hc hea1 heb1 hy
      have hkk : ikey ash bsh eb.1 = k ↔ maskSel (interMask ash bsh) ea.1 = maskSel (interMask ash bsh) eb.1 := by
        rw [← ikey_eq_iff hc hea1 heb1, hea.2]; exact eq_comm
      have hrm : rowMajor (List.zipWith max ash bsh) (pickCoord ash ea.1 eb.1) =
          rowMajor (List.zipWith max ash bsh) y ↔ pickCoord ash ea.1 eb.1 = y :=
        ⟨fun h => rowMajor_inj (pick_inBounds hc hea1 heb1) hy h, fun h => by rw [h]⟩
      simp only [Function.comp, Bool.and_eq_true, beq_iff_eq, hrm, hkk]
      exact if_neg (fun h => hx (hiff.1 ⟨h.2, h.1⟩).1)
  rw [List.map_congr_left inner, sum_filter_ite]
  by_cases hk : k = ikey ash bsh (bidx ash y)
  · rw [if_pos hk, sum_filter_ite PA, ← List.sum_map_mul_right]
    congr 1
    apply List.map_congr_left
    intro ea _
    by_cases hx : ea.1 = bidx ash y
    · simp [hx, hk]
    · simp [hx]
  · rw [if_neg hk]
    refine Eq.trans ?_ (sum_map_zero PA)
    congr 1
    apply List.map_congr_left
    intro ea _
    by_cases hx : ea.1 = bidx ash y
    · have : ¬ (ikey ash bsh ea.1 == k) = true := by rw [hx]; simpa using Ne.symm hk
      rw [if_neg this]
    · simp [hx]

theorem bidx_mask {ash bsh : List Nat} (hc : BCompat ash bsh) {y : List Int} (hl : y.length = ash.length) :
    maskSel (interMask ash bsh) (bidx ash y) = maskSel (interMask ash bsh) (bidx bsh y) := by
  induction hc generalizing y with
  | nil => cases y <;> rfl
  | cons h _ ih =>
    rename_i s t _ _ _
    cases y with
    | nil => simp at hl
    | cons i y =>
      simp only [List.length_cons, Nat.add_right_cancel_iff] at hl
      have := ih hl
      simp only [interMask, bidx] at this
      simp only [interMask, bidx, List.zipWith_cons_cons]
      by_cases hm : s ≠ 1 ∧ t ≠ 1
      · rw [decide_eq_true hm]
        simp only [maskSel, if_neg hm.1, if_neg hm.2, this]
      · rw [decide_eq_false hm]
        exact this

theorem allprods_sum [NonUnitalNonAssocSemiring V] {ash bsh : List Nat} (hc : BCompat ash bsh)
    {PA PB : List (List Int × V)} (hA : ∀ e ∈ PA, InBounds ash e.1) (hB : ∀ e ∈ PB, InBounds bsh e.1)
    {keys : List Nat} (hnd : keys.Nodup)
    (hk : ∀ k, k ∈ keys ↔ k ∈ PA.map (fun e => ikey ash bsh e.1) ∧ k ∈ PB.map (fun e => ikey ash bsh e.1))
    {y : List Int} (hy : InBounds (List.zipWith max ash bsh) y) :
    ((((keys.map (kprods ash bsh PA PB)).flatten).filter fun e => e.1 == rowMajor (List.zipWith max ash bsh) y).map
        Prod.snd).sum =
      ((PA.filter fun e => e.1 == bidx ash y).map Prod.snd).sum *
      ((PB.filter fun e => e.1 == bidx bsh y).map Prod.snd).sum := by
  rw [sum_filter_flatten, List.map_map]
  rw [List.map_congr_left (f := (fun l : List (Nat × V) => ((l.filter fun e => e.1 == rowMajor (List.zipWith max ash bsh) y).map
        Prod.snd).sum) ∘ kprods ash bsh PA PB) (g := fun k => if k = ikey ash bsh (bidx ash y) then
        ((PA.filter fun e => e.1 == bidx ash y).map Prod.snd).sum *
        ((PB.filter fun e => e.1 == bidx bsh y).map Prod.snd).sum
      else 0) (fun k _ => kprods_sum hc hA hB hy k), sum_map_ite_key _ hnd]
  split
  · rfl
  · rename_i h
    rw [hk] at h
    by_cases h1 : ∃ e ∈ PA, e.1 = bidx ash y
    · by_cases h2 : ∃ e ∈ PB, e.1 = bidx bsh y
      · exfalso; apply h
        obtain ⟨e, he, hx⟩ := h1
        obtain ⟨e', he', hx'⟩ := h2
        refine ⟨List.mem_map.2 ⟨e, he, by rw [hx]⟩, List.mem_map.2 ⟨e', he', ?_⟩⟩
        rw [hx']
        unfold ikey
        have hlen : y.length = ash.length := by
          rw [hy.length, List.length_zipWith, hc.length_eq, Nat.min_self]
        rw [bidx_mask hc hlen]
      · have : (PB.filter fun e => e.1 == bidx bsh y) = [] := by
          rw [List.filter_eq_nil_iff]
          intro e he hx
          exact h2 ⟨e, he, by simpa using hx⟩
        rw [this]; simp
    · have : (PA.filter fun e => e.1 == bidx ash y) = [] := by
        rw [List.filter_eq_nil_iff]
        intro e he hx
        exact h1 ⟨e, he, by simpa using hx⟩
      rw [this]; simp

end Lacuna
