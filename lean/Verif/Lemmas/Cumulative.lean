import Verif.Model.Cumulative
import Verif.Lemmas.Spmm
import Verif.Lemmas.Transpose
import Verif.Spec.Cumulative
/-
Closed forms of the cumulative loops and of the dense transposition.
-/
namespace Lacuna
universe u
variable {V : Type u}

theorem mapM_congr' {α β : Type*} {f g : α → Option β} {l : List α} (h : ∀ x ∈ l, f x = g x) :
    l.mapM f = l.mapM g := by
  induction l with
  | nil => rfl
  | cons x l ih => rw [List.mapM_cons, List.mapM_cons, h x (by simp), ih (fun y hy => h y (by simp [hy]))]

theorem fillRange?_eq [Zero V] {l : List V} {lo hi : Nat} (h1 : lo ≤ hi) (h2 : hi ≤ l.length) (v : V) :
    ∃ l', fillRange? l lo hi v = some l' ∧ l'.length = l.length ∧
      ∀ j, j < l.length → l'.getD j 0 = if lo ≤ j ∧ j < hi then v else l.getD j 0 := by
  refine ⟨l.take lo ++ List.replicate (hi - lo) v ++ l.drop hi, if_pos ⟨h1, h2⟩, ?_, fun j hj => ?_⟩
  · simp; omega
  · simp only [List.getD_eq_getElem?_getD]
    have hl1 : (l.take lo).length = lo := by simp; omega
    have hl2 : (l.take lo ++ List.replicate (hi - lo) v).length = hi := by simp; omega
    by_cases h : j < hi
    · rw [List.getElem?_append_left (by omega)]
      by_cases h' : j < lo
      · rw [List.getElem?_append_left (by omega), List.getElem?_take_of_lt h', if_neg (by omega)]
      · rw [List.getElem?_append_right (by omega), hl1, List.getElem?_replicate, if_pos (by omega), if_pos (by omega)]
        rfl
    · rw [List.getElem?_append_right (by omega), hl2, List.getElem?_drop, if_neg (by omega),
        show hi + (j - hi) = j by omega]

theorem setAt?_eq [Zero V] {l : List V} {p : Nat} (h : p < l.length) (v : V) :
    ∃ l', setAt? l p v = some l' ∧ l'.length = l.length ∧
      ∀ j, j < l.length → l'.getD j 0 = if j = p then v else l.getD j 0 := by
  refine ⟨l.set p v, if_pos h, by simp, fun j hj => ?_⟩
  simp only [List.getD_eq_getElem?_getD]
  rw [List.getElem?_set]
  by_cases hjp : p = j
  · subst hjp; simp [h]
  · rw [if_neg hjp, if_neg (Ne.symm hjp)]

/-- The remaining part of a cumulative-sum row. -/
theorem cumsum_rest [Zero V] [Add V] {m : Nat} (es : List (Int × V)) : ∀ (out : List V) (prev : Nat) (acc : V),
    out.length = m → Srt es → (∀ e ∈ es, 0 ≤ e.1 ∧ e.1 < m ∧ e.1 ≤ i64Max) → (∀ e ∈ es, (prev : Int) ≤ e.1) → prev ≤ m →
    ∃ y, ((es.foldlM cumsumStep ⟨out, prev, acc⟩).bind fun s =>
        if s.prev < m then fillRange? s.out s.prev s.out.length s.acc else some s.out) = some y ∧ y.length = m ∧
      ∀ j, j < m → y.getD j 0 = if j < prev then out.getD j 0
        else (es.filter fun e => decide (e.1 ≤ (j : Int))).foldl (fun s e => s + e.2) acc := by
  induction es with
  | nil =>
    intro out prev acc ho _ _ _ hp
    simp only [List.foldlM_nil, Option.pure_def, Option.bind_some]
    split
    · obtain ⟨y, h1, h2, h3⟩ := fillRange?_eq (l := out) (lo := prev) (hi := out.length) (by omega) le_rfl acc
      refine ⟨y, h1, by omega, fun j hj => ?_⟩
      rw [h3 j (by omega)]
      by_cases h : j < prev
      · rw [if_neg (by omega), if_pos h]
      · rw [if_pos (by omega), if_neg h]; rfl
    · exact ⟨out, rfl, ho, fun j hj => by rw [if_pos (by omega)]⟩
  | cons e es ih =>
    intro out prev acc ho hs hb hlo hp
    obtain ⟨k, v⟩ := e
    obtain ⟨hs1, hs2⟩ := srt_cons.1 hs
    obtain ⟨hk0, hkm, hki⟩ := hb (k, v) (by simp)
    have hkl := hlo (k, v) (by simp)
    simp only at hk0 hkm hki hkl
    have hc : i64ToUsize k = k.toNat := i64ToUsize_of_nonneg hk0 hki
    -- the gap
    obtain ⟨o1, g1, g2, g3⟩ : ∃ o1, (if i64ToUsize k > prev then fillRange? out prev (i64ToUsize k) acc else some out) = some o1 ∧
        o1.length = m ∧ ∀ j, j < m → o1.getD j 0 = if prev ≤ j ∧ j < k.toNat then acc else out.getD j 0 := by
      rw [hc]
      split
      · obtain ⟨o1, h1, h2, h3⟩ := fillRange?_eq (l := out) (lo := prev) (hi := k.toNat) (by omega) (by omega) acc
        exact ⟨o1, h1, by omega, fun j hj => h3 j (by omega)⟩
      · exact ⟨out, rfl, ho, fun j hj => by rw [if_neg (by omega)]⟩
    obtain ⟨o2, f1, f2, f3⟩ := setAt?_eq (l := o1) (p := k.toNat) (by omega) (acc + v)
    obtain ⟨y, y1, y2, y3⟩ := ih o2 (k.toNat + 1) (acc + v) (by omega) hs2 (fun e he => hb e (by simp [he]))
      (fun e he => by have := hs1 e he; omega) (by omega)
    have hstep : cumsumStep ⟨out, prev, acc⟩ (k, v) = some ⟨o2, k.toNat + 1, acc + v⟩ := by
      unfold cumsumStep
      simp only
      rw [g1, Option.bind_some, hc, f1]
      rfl
    refine ⟨y, ?_, y2, fun j hj => ?_⟩
    · rw [List.foldlM_cons, hstep]
      exact y1
    · rw [y3 j hj]
      by_cases h1 : j < k.toNat
      · rw [if_pos (by omega), f3 j (by omega), if_neg (by omega), g3 j hj]
        have hnil : ((k, v) :: es).filter (fun e => decide (e.1 ≤ (j : Int))) = [] := by
          rw [List.filter_eq_nil_iff]
          intro e he
          have : k ≤ e.1 := by
            rcases List.mem_cons.1 he with rfl | he
            · exact le_rfl
            · exact le_of_lt (hs1 e he)
          simp; omega
        by_cases h2 : j < prev
        · rw [if_neg (by omega), if_pos h2]
        · rw [if_pos (by omega), if_neg h2, hnil]; rfl
      · rw [if_neg (by omega : ¬ j < prev), List.filter_cons_of_pos (by simp; omega), List.foldl_cons]
        by_cases h2 : j = k.toNat
        · rw [if_pos (by omega), f3 j (by omega), if_pos h2]
          have hnil : es.filter (fun e => decide (e.1 ≤ (j : Int))) = [] := by
            rw [List.filter_eq_nil_iff]
            intro e he
            have := hs1 e he
            simp; omega
          rw [hnil]; rfl
        · rw [if_neg (by omega)]

/-- The remaining part of a cumulative-product row: as long as every cell is stored, the
running product; zero from the first missing cell on. -/
theorem cumprod_rest [Zero V] [Mul V] {m : Nat} (es : List (Int × V)) : ∀ (out : List V) (prev : Nat) (acc : V),
    out.length = m → Srt es → (∀ e ∈ es, 0 ≤ e.1 ∧ e.1 < m ∧ e.1 ≤ i64Max) → (∀ e ∈ es, (prev : Int) ≤ e.1) → prev ≤ m →
    (∀ j, prev ≤ j → j < m → out.getD j 0 = 0) →
    ∃ y, cumprodLoop es ⟨out, prev, acc⟩ = some y ∧ y.length = m ∧
      ∀ j, j < m → y.getD j 0 = if j < prev then out.getD j 0
        else (((List.range' prev (j + 1 - prev)).mapM fun (k : Nat) => lk (k : Int) es).map
          fun vs => vs.foldl (· * ·) acc).getD 0 := by
  induction es with
  | nil =>
    intro out prev acc ho _ _ _ hp hz
    refine ⟨out, rfl, ho, fun j hj => ?_⟩
    by_cases h : j < prev
    · rw [if_pos h]
    · rw [if_neg h, hz j (by omega) hj, show j + 1 - prev = (j - prev) + 1 by omega, List.range'_succ,
        List.mapM_cons]
      rfl
  | cons e es ih =>
    intro out prev acc ho hs hb hlo hp hz
    obtain ⟨k, v⟩ := e
    obtain ⟨hs1, hs2⟩ := srt_cons.1 hs
    obtain ⟨hk0, hkm, hki⟩ := hb (k, v) (by simp)
    have hkl := hlo (k, v) (by simp)
    simp only at hk0 hkm hki hkl
    have hc : i64ToUsize k = k.toNat := i64ToUsize_of_nonneg hk0 hki
    rw [cumprodLoop]
    simp only [hc]
    split
    · rename_i hgap
      refine ⟨out, rfl, ho, fun j hj => ?_⟩
      by_cases h : j < prev
      · rw [if_pos h]
      · have hnone : lk (prev : Int) ((k, v) :: es) = none := by
          apply lk_none
          intro e he
          rcases List.mem_cons.1 he with rfl | he
          · show k ≠ _; omega
          · have := hs1 e he; omega
        rw [if_neg h, hz j (by omega) hj, show j + 1 - prev = (j - prev) + 1 by omega, List.range'_succ,
          List.mapM_cons, hnone]
        rfl
    · rename_i hgap
      have hk : k = (prev : Int) := by omega
      subst hk
      obtain ⟨o2, f1, f2, f3⟩ := setAt?_eq (l := out) (p := prev) (by omega) (acc * v)
      obtain ⟨y, y1, y2, y3⟩ := ih o2 (prev + 1) (acc * v) (by omega) hs2 (fun e he => hb e (by simp [he]))
        (fun e he => by have := hs1 e he; omega) (by omega)
        (fun j h1 h2 => by rw [f3 j (by omega), if_neg (by omega)]; exact hz j (by omega) h2)
      simp only [Int.toNat_natCast]
      rw [f1]
      refine ⟨y, y1, y2, fun j hj => ?_⟩
      rw [y3 j hj]
      by_cases h1 : j < prev
      · rw [if_pos (by omega), if_pos h1, f3 j (by omega), if_neg (by omega)]
      · rw [if_neg h1, show j + 1 - prev = (j - prev) + 1 by omega, List.range'_succ, List.mapM_cons, lk_cons, if_pos rfl]
        have hcongr : (List.range' (prev + 1) (j - prev)).mapM (fun (k : Nat) => lk (k : Int) (((prev : Int), v) :: es)) =
            (List.range' (prev + 1) (j - prev)).mapM fun (k : Nat) => lk (k : Int) es := by
          apply mapM_congr'
          intro x hx
          rw [lk_cons, if_neg]
          have := List.mem_range'_1.1 hx
          omega
        rw [hcongr]
        by_cases h2 : j = prev
        · subst h2
          rw [if_pos (by omega), f3 j (by omega), if_pos rfl, Nat.sub_self]
          rfl
        · rw [if_neg (by omega), show j + 1 - (prev + 1) = j - prev by omega]
          cases (List.range' (prev + 1) (j - prev)).mapM fun (k : Nat) => lk (k : Int) es <;> rfl

/-- Every row kernel that turns a zero chunk into the cells `f i 0, f i 1, …`. -/
theorem cumRows_eq [Zero V] {a : Csr V} (hm : a.nrows * a.ncols ≤ usizeMax)
    {row : List (Int × V) → List V → Option (List V)} {f : Nat → Nat → V}
    (h : ∀ i, i < a.nrows → ∃ y, row (a.comp.row i) (List.replicate a.ncols 0) = some y ∧ y.length = a.ncols ∧
      ∀ j, j < a.ncols → y.getD j 0 = f i j) :
    cumRows a row = some ((List.range (a.nrows * a.ncols)).map fun p => f (p / a.ncols) (p % a.ncols)) := by
  unfold cumRows
  split
  · rename_i h0
    have : a.nrows * a.ncols = 0 := by rcases h0 with h0 | h0 <;> simp [h0]
    rw [this]; rfl
  · rename_i h0
    rw [wrapMul_eq hm, chunksOf_replicate _ _ (by omega),
      mapM_option_map (g := fun c : List V × Nat => (List.range a.ncols).map (f c.2))]
    · rw [Option.map_some]
      congr 1
      rw [← flatten_grid]
      congr 1
      apply List.ext_getElem <;> simp
    · rintro ⟨c, i⟩ hc
      have hc' := List.mem_zipIdx hc
      simp only [List.length_replicate, Nat.zero_add] at hc'
      obtain ⟨y, h1, h2, h3⟩ := h i hc'.2.1
      have e : c = List.replicate a.ncols 0 := by
        rw [hc'.2.2]; simp
      simp only
      rw [e, h1]
      congr 1
      apply ext_getD h2 (by simp)
      intro j hj
      rw [h3 j hj, List.getD_eq_getElem _ _ (by simpa using hj)]
      simp

theorem getD_grid [Zero V] (n m : Nat) (f : Nat → Nat → V) {i j : Nat} (hi : i < n) (hj : j < m) :
    ((List.range (n * m)).map fun p => f (p / m) (p % m)).getD (i * m + j) 0 = f i j := by
  rw [List.getD_eq_getElem _ _ (by simpa using mul_add_lt hi hj), List.getElem_map, List.getElem_range,
    Nat.mul_comm i m, Nat.mul_add_div (by omega), Nat.mul_add_mod, Nat.div_eq_of_lt hj, Nat.mod_eq_of_lt hj,
    Nat.add_zero]

/-- Dense transposition. -/
theorem transposeDense_eq [Zero V] {input : List V} {rows cols : Nat} (hl : input.length = rows * cols)
    (hm : rows * cols ≤ usizeMax) :
    ∃ out, transposeDense input rows cols = some out ∧ out.length = cols * rows ∧
      ∀ r c, r < rows → c < cols → out.getD (c * rows + r) 0 = input.getD (r * cols + c) 0 := by
  unfold transposeDense
  rw [wrapMul_eq hm]
  have key : ∀ (ps done : List (Nat × Nat)) (buf : List V), buf.length = rows * cols →
      (∀ p ∈ ps, p.1 < rows ∧ p.2 < cols) → (∀ p ∈ done, p.1 < rows ∧ p.2 < cols) →
      (∀ p ∈ done, buf.getD (p.2 * rows + p.1) 0 = input.getD (p.1 * cols + p.2) 0) →
      ∃ out, ps.foldlM (fun out p => (input[p.1 * cols + p.2]?).bind fun v => setAt? out (p.2 * rows + p.1) v) buf =
        some out ∧ out.length = rows * cols ∧
        ∀ p, p ∈ done ∨ p ∈ ps → out.getD (p.2 * rows + p.1) 0 = input.getD (p.1 * cols + p.2) 0 := by
    intro ps
    induction ps with
    | nil => intro done buf hb _ _ hd; exact ⟨buf, rfl, hb, fun p hp => hd p (by simpa using hp)⟩
    | cons q ps ih =>
      intro done buf hb hps hdb hd
      obtain ⟨hq1, hq2⟩ := hps q (by simp)
      have hin : q.1 * cols + q.2 < input.length := by rw [hl]; exact mul_add_lt hq1 hq2
      have hout : q.2 * rows + q.1 < buf.length := by rw [hb, Nat.mul_comm rows]; exact mul_add_lt hq2 hq1
      obtain ⟨b2, f1, f2, f3⟩ := setAt?_eq hout input[q.1 * cols + q.2]
      obtain ⟨out, o1, o2, o3⟩ := ih (q :: done) b2 (by omega) (fun p hp => hps p (by simp [hp]))
        (by
          intro p hp
          rcases List.mem_cons.1 hp with rfl | hp
          · exact ⟨hq1, hq2⟩
          · exact hdb p hp) (by
          intro p hp
          have hp' : p.1 < rows ∧ p.2 < cols := by
            rcases List.mem_cons.1 hp with rfl | hp
            · exact ⟨hq1, hq2⟩
            · exact hdb p hp
          have hlt : p.2 * rows + p.1 < buf.length := by rw [hb, Nat.mul_comm rows]; exact mul_add_lt hp'.2 hp'.1
          rw [f3 _ hlt]
          by_cases he : p.2 * rows + p.1 = q.2 * rows + q.1
          · have e1 : p.1 = q.1 := by
              have := congrArg (· % rows) he
              simpa [Nat.mul_add_mod_of_lt, Nat.mod_eq_of_lt hp'.1, Nat.mod_eq_of_lt hq1] using this
            have e2 : p.2 = q.2 := by
              have h' : p.2 * rows = q.2 * rows := by omega
              exact Nat.eq_of_mul_eq_mul_right (by omega) h'
            rw [if_pos he, e1, e2, List.getD_eq_getElem _ _ hin]
          · rw [if_neg he]
            rcases List.mem_cons.1 hp with rfl | hp
            · exact absurd rfl he
            · exact hd p hp)
      refine ⟨out, ?_, o2, fun p hp => o3 p ?_⟩
      · rw [List.foldlM_cons, List.getElem?_eq_getElem hin, Option.bind_some, f1]
        exact o1
      · rcases hp with hp | hp
        · exact .inl (by simp [hp])
        · rcases List.mem_cons.1 hp with rfl | hp
          · exact .inl (by simp)
          · exact .inr hp
  obtain ⟨out, h1, h2, h3⟩ := key ((List.range rows).flatMap fun r => (List.range cols).map fun c => (r, c)) []
    (List.replicate (rows * cols) 0) (by simp) (by
      intro p hp
      obtain ⟨r, hr, hp⟩ := List.mem_flatMap.1 hp
      obtain ⟨c, hc, rfl⟩ := List.mem_map.1 hp
      exact ⟨List.mem_range.1 hr, List.mem_range.1 hc⟩) (by simp) (by simp)
  refine ⟨out, h1, by rw [h2, Nat.mul_comm], fun r c hr hc => h3 (r, c) (.inr ?_)⟩
  simp [hr, hc]

end Lacuna
