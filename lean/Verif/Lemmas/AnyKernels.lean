import Verif.Lemmas.AnyLines
/-
Every reduction kernel has an outcome in any arithmetic, and the outcomes are what Spec/PyAny says.
-/
set_option linter.unusedSectionVars false

namespace Lacuna
variable {V : Type}

theorem satMul_min (n m : Nat) : satMul n m = Nat.min (n * m) usizeMax := rfl

/-- Work items that store one value per line: exactly one outcome, whatever is stored. -/
theorem rangesPtr_lines {β : Type} (n : Nat) (w : Nat → Nat) (g : Nat → β) (z : β) :
    ∃ y, (∀ item : Nat × Nat → Except Fault (List (Nat × β)),
      (∀ r : Nat × Nat, r.2 ≤ n → item r = .ok ((rangeLines r).map fun i => (i, g i))) → ∀ out, RangesPtr (.ok (rangeScan (128 * 1024) 0 0 0 ((List.range n).map w))) item (List.replicate n z) out
      ↔ out = .ok y) ∧ y.length = n ∧ ∀ i, i < n → y[i]? = some (g i) ∨ w i = 0 ∧ y[i]? = some z := by
  generalize hR : rangeScan (128 * 1024) 0 0 0 ((List.range n).map w) = R
  obtain ⟨h1, _⟩ := ranges_increasing (128 * 1024) (by decide) w n
  have hcov := ranges_cover (128 * 1024) w n
  have hnd := ranges_nodup (128 * 1024) (by decide) w n
  rw [hR] at h1 hcov hnd
  have hmem : ∀ i ∈ R.flatMap rangeLines, i < n := by
    intro i hi
    obtain ⟨r, hr, hi⟩ := List.mem_flatMap.1 hi
    unfold rangeLines at hi
    rw [List.mem_range'_1] at hi
    have := (h1 r hr).2
    omega
  have hflat : (R.map fun r => (rangeLines r).map fun i => (i, g i)).flatten
      = (R.flatMap rangeLines).map fun i => (i, g i) := by
    rw [List.map_flatMap, List.flatMap_def]
  have hps := parStore_iff (init := List.replicate n z)
    (evs := R.map fun r => (rangeLines r).map fun i => (i, g i))
    (res := (List.range n).map fun i => if i ∈ R.flatMap rangeLines then g i else z)
    (by
      rw [hflat, List.map_map, show (Prod.fst ∘ fun i => (i, g i)) = id by rfl, List.map_id]
      exact hnd)
    (fun sched hp => by
      rw [hflat] at hp
      apply applyWrites_agree
      · simp
      · intro x hx
        obtain ⟨i, hi, rfl⟩ := List.mem_map.1 (hp.subset hx)
        rw [List.getElem?_map, List.getElem?_range (hmem i hi), Option.map_some, if_pos hi]
      · intro p hpw
        by_cases hpn : p < n
        · have hni : ¬ p ∈ R.flatMap rangeLines := fun hin =>
            hpw (p, g p) (hp.symm.subset (List.mem_map.2 ⟨p, hin, rfl⟩)) rfl
          rw [List.getElem?_map, List.getElem?_range hpn, Option.map_some, if_neg hni]
          simp [hpn]
        · simp [hpn])
  refine ⟨(List.range n).map fun i => if i ∈ R.flatMap rangeLines then g i else z, fun item hitem out => ?_,
    by simp, fun i hi => ?_⟩
  · have hpe := parEach_ok (items := R) (f := item) (g := fun r => (rangeLines r).map fun i => (i, g i))
      (fun r hr => hitem r (h1 r hr).2)
    show (∃ oe, ParEach R item oe ∧ _) ↔ _
    constructor
    · rintro ⟨oe, hoe, h⟩
      rw [(hpe oe).1 hoe] at h
      exact (hps out).1 h
    · intro h
      exact ⟨_, (hpe _).2 rfl, (hps out).2 h⟩
  · rw [List.getElem?_map, List.getElem?_range hi, Option.map_some]
    by_cases hin : i ∈ R.flatMap rangeLines
    · rw [if_pos hin]; exact .inl rfl
    · rw [if_neg hin]
      refine .inr ⟨hcov i hi fun r hr hin' => hin (List.mem_flatMap.2 ⟨r, hr, ?_⟩), rfl⟩
      unfold rangeLines
      rw [List.mem_range'_1]; omega

section
variable [Zero V] [Add V]

/-- Row sums of a CSR matrix in any arithmetic: one outcome, and its entries. -/
theorem row_sums_csr_any {a : Csr V} (ha : a.comp.PtrOk) (hm : a.comp.Machine) (dbg : Bool) :
    ∃ y, (∀ F, a.data.length < F → ∀ out, RowSumsPtrRun dbg F a out ↔ out = .ok y) ∧
      y.length = a.nrows ∧ ∀ i, i < a.nrows → AddTree (a.rowVals i : Multiset V) (y.getD i 0) := by
  unfold RowSumsPtrRun
  rw [show a.nrows = a.comp.n from rfl, ha.rangesP hm dbg]
  obtain ⟨y, h1, h2, h3⟩ := rangesPtr_lines a.comp.n (fun i => a.comp.ptr (i + 1) - a.comp.ptr i)
    (fun i => chunkSum ((a.comp.row i).map Prod.snd)) 0
  refine ⟨y, fun F hF => h1 _ fun r hr => ?_, h2, fun i hi => ?_⟩
  · unfold rowSumsRangeP
    refine mapM_exceptOk _ fun i hi => ?_
    unfold rangeLines at hi
    rw [List.mem_range'_1] at hi
    have hin : i < a.comp.n := by omega
    rw [lineSumP_eq ha hm dbg hin hF, ok_bind, MutPtr.put_eq (by show 0 + i < a.comp.n; omega)]
    simp
  rw [List.getD_eq_getElem?_getD]
  rcases h3 i hi with h | ⟨hw, h⟩
  · rw [h]; exact chunkSum_tree _
  · rw [h]
    unfold Csr.rowVals Comp.lineVals
    rw [Comp.row_nil_of_len hw]
    exact .zero

end

section
variable [Zero V] [One V] [Add V] [Sub V] [Mul V] [Div V] [BEq V] [NatCast V] [HasLt V] [HasMinMax V] [HasSqrt V]

theorem ext_glob {join : V → V → V → Prop} {o : ExtOps V} (hb : ∀ a b, join a b (o.best a b))
    (hl : ∀ a b, join a b (o.lane a b)) (hk : ∀ a b, join a b (o.keep a b)) {n m : Nat} {data : List V} {r : V}
    (hlen : data.length < usizeMax) (h : ExtRun o n m data r) :
    (if n * m = 0 then r = 0 else JoinTree join o.far
      (if Multiset.card (data : Multiset V) < n * m then 0 ::ₘ (data : Multiset V) else (data : Multiset V)) r) := by
  unfold ExtRun at h
  rw [Multiset.coe_card]
  by_cases h0 : n = 0 ∨ m = 0
  · rw [if_pos h0] at h
    rw [if_pos (Nat.mul_eq_zero.2 h0)]; exact h
  · rw [if_neg h0] at h
    rw [if_neg (fun x => h0 (Nat.mul_eq_zero.1 x))]
    obtain ⟨d, h1, rfl⟩ := h
    have hd := chunkReduce_join hb (chunkExt_join hb hl hk) h1
    have hiff : data.length < satMul n m ↔ data.length < n * m := by
      rw [satMul_min]
      show data.length < min (n * m) usizeMax ↔ _
      omega
    by_cases h2 : data.length < n * m
    · rw [if_pos h2, if_pos (hiff.2 h2)]
      refine (JoinTree.node hd (.leaf 0) (hb _ _)).to ?_
      rw [add_comm, Multiset.singleton_add]
    · rw [if_neg h2, if_neg (fun x => h2 (hiff.1 x))]
      exact hd

theorem glob_any {a : Native V} (op : RedOp V) (hd : 24 * (a.data.length : Int) ≤ i64Max)
    (h0 : a.rows * a.cols = 0 → a.data = []) :
    Gives (fun N => op.Glob N a) (op.kernel.Computes (a.rows * a.cols) (a.data : Multiset V)) := by
  have hlen : a.data.length < usizeMax := by unfold i64Max at hd; unfold usizeMax; omega
  have hs : Gives (fun N => SumPtrRun N a.data) (AddTree (a.data : Multiset V)) :=
    gives_of (a.data.length + 1) (fun N hN o => sum_ptr a.data hlen.le (by omega) o) (sum_runs _) fun r => sum_terms
  have hvar : ∀ c r, VarRun (satMul a.rows a.cols) a.data c r →
      (RedOp.var c).Computes (a.rows * a.cols) (a.data : Multiset V) r := by
    intro c r hr
    unfold VarRun at hr
    by_cases hz : satMul a.rows a.cols = 0
    · rw [if_pos hz] at hr
      have hz' : a.rows * a.cols = 0 := by
        rw [satMul_min] at hz
        have : min (a.rows * a.cols) usizeMax = 0 := hz
        unfold usizeMax at this; omega
      rw [h0 hz', hz', hr]
      exact ⟨0, 0, .zero, .zero, rfl⟩
    · rw [if_neg hz] at hr
      obtain ⟨p, hp, rfl⟩ := hr
      obtain ⟨h1, h2⟩ := pairTree_split (sumsRun_join hp)
      refine ⟨p.1, p.2, ?_, ?_, rfl⟩
      · convert h1 using 1
        rw [squares, Multiset.map_coe, List.map_map]
        exact (congrArg _ (List.map_id a.data)).symm
      · convert h2 using 1
        rw [squares, Multiset.map_coe, Multiset.map_coe, List.map_map]
        rfl
  cases op with
  | sum => exact hs
  | mean => exact hs
  | prod =>
    refine gives_of (a.data.length + 1) (fun N hN o => prod_ptr _ a.data hlen.le (by omega) o) (prod_runs _ _) fun r hr => ?_
    unfold ProdRun at hr
    have hm : satMul a.rows a.cols = min (a.rows * a.cols) usizeMax := rfl
    show (if Multiset.card (a.data : Multiset V) < a.rows * a.cols then _ else _)
    rw [Multiset.coe_card]
    by_cases hz : a.rows * a.cols = 0
    · rw [if_pos (by omega)] at hr
      rw [h0 hz, hz, hr, if_neg (Nat.not_lt_zero _)]
      exact .unit
    · rw [if_neg (by unfold usizeMax at hm; omega)] at hr
      by_cases h2 : a.data.length < a.rows * a.cols
      · rw [if_pos (by omega)] at hr
        rw [if_pos h2]; exact hr
      · rw [if_neg (by omega)] at hr
        rw [if_neg h2]
        exact chunkReduce_join (join := fun a b c : V => c = a * b) (fun _ _ => rfl) chunkProd_join hr
  | var c =>
    exact gives_of (a.data.length + 1) (fun N hN o => varPtr_iff _ a.data c hlen.le (by omega) o) (var_runs _ _ _) (hvar c)
  | std c =>
    refine gives_map (a.data.length + 1) (fun N hN o => varPtr_iff _ a.data c hlen.le (by omega) o) (var_runs _ _ _)
      (hvar c) fun y hy => ?_
    obtain ⟨t, q, h1, h2, h3⟩ := hy
    exact ⟨t, q, h1, h2, congrArg fsqrt h3⟩
  | min =>
    exact gives_of (a.data.length + 1) (fun N hN => minmax_ptr _ _ _ _ hlen.le (by omega)) (ext_runs _ _ _ _) fun r hr =>
      ext_glob (o := minOps V) (join := MinJoin) (fun _ _ => .inl rfl) (fun _ _ => .inr (.inl rfl)) (fun _ _ => .inr (.inr rfl)) hlen hr
  | max =>
    exact gives_of (a.data.length + 1) (fun N hN => minmax_ptr _ _ _ _ hlen.le (by omega)) (ext_runs _ _ _ _) fun r hr =>
      ext_glob (o := maxOps V) (join := MaxJoin) (fun _ _ => .inl rfl) (fun _ _ => .inr (.inl rfl)) (fun _ _ => .inr (.inr rfl)) hlen hr

theorem each_sum {op : RedOp V} (hop : op = .sum ∨ op = .mean) {n k : Nat} {vals : Nat → List V} {y : List V}
    (h : y.length = n ∧ ∀ i, i < n → AddTree (vals i : Multiset V) (y.getD i 0)) :
    op.Each n k (fun i => (vals i : Multiset V)) y := by
  refine ⟨h.1, fun i r hr => ?_⟩
  have hi : i < n := by rw [← h.1]; exact (List.getElem?_eq_some_iff.1 hr).1
  have := h.2 i hi
  rw [List.getD_eq_getElem?_getD, hr] at this
  rcases hop with rfl | rfl <;> exact this

theorem Comp.WFU.data_nil {a : Comp V} (h : a.WFU) (hz : a.n * a.m = 0) : a.data = [] := by
  have hrow : ∀ i, i < a.n → a.row i = [] := by
    intro i hi
    have hm : a.m = 0 := by
      rcases Nat.mul_eq_zero.1 hz with h | h
      · omega
      · exact h
    exact List.map_eq_nil_iff.1 (lineVals_nil h hm i)
  have := h.data_eq
  rw [this]
  unfold Comp.rows
  rw [List.map_eq_nil_iff, List.flatten_eq_nil_iff]
  intro l hl
  obtain ⟨i, hi, rfl⟩ := List.mem_map.1 hl
  exact hrow i (List.mem_range.1 hi)

/-- The kernels for CSR. -/
theorem csr_any {env : PyEnv V} (he : env.Ok) {a : Csr V} (ha : a.WF) (hm : a.comp.Machine)
    (hl : 8 * ((a.ncols : Int) + 1) ≤ i64Max) (hd : 24 * (a.data.length : Int) ≤ i64Max) (op : RedOp V) :
    Gives (fun N => op.Glob N (.csr a)) (op.kernel.Computes (a.nrows * a.ncols) (a.data : Multiset V)) ∧
    Gives (fun N => op.Cols env N (.csr a)) (op.Each a.ncols a.nrows fun j => (a.colVals j : Multiset V)) ∧
    Gives (fun N => op.Rows env N (.csr a)) (op.Each a.nrows a.ncols fun i => (a.rowVals i : Multiset V)) := by
  have hw := Comp.WF.wfu ha
  have hf : a.comp.Fits := Comp.WFU.fits_of_machine hw hm
  have ht : env.threads < 2 ^ 62 := by have := he.threads; omega
  have key := fun N (hN : a.data.length < N) =>
    col_reductions_csr_ptr hw (Comp.WF.noRep ha) hm hl (by omega) he.pair ht hN env.dbg
  have row := fun N (hN : a.data.length < N) => line_reductions_ptr hw.ptrOk hm env.dbg hN
  have hnu : a.nrows ≤ usizeMax := by have := hf.1; change (a.nrows : Int) ≤ i64Max at this; unfold i64Max at this; unfold usizeMax; omega
  have hmu : a.ncols ≤ usizeMax := by unfold i64Max at hl; unfold usizeMax; omega
  have hline := lines_each hw hmu
  have hcross : ∀ t, TransposeCsrRun env.pairSort env.threads a t → _ := fun t h =>
    cross_each hw hf hnu (interleaving_events a.comp) (transposeRun_eq ha hf he.pair h)
  obtain ⟨t₀, ht₀⟩ := transpose_csr_exists ha hf he.pair env.threads
  have hcols : Gives (fun N => SumCols env N (.csr a)) (fun y => y.length = a.ncols ∧ ∀ j, j < a.ncols → AddTree (a.colVals j : Multiset V) (y.getD j 0)) :=
    (gives_wit (a.ncols + 3 * a.data.length + 1025) (col_sums_wit hw hm (by omega) hd)
      (fun N hN => col_sums_ptr hw hm (by omega) hd (by omega))).mono fun y hy => col_sums_csr_terms env.threads hw hmu hy
  have hrows : Gives (fun N => SumRows env N (.csr a)) (fun y => y.length = a.nrows ∧ ∀ i, i < a.nrows → AddTree (a.rowVals i : Multiset V) (y.getD i 0)) :=
    Exists.elim (row_sums_csr_any hw.ptrOk hm env.dbg) fun y hy =>
      gives_eq (a.data.length + 1) (fun N hN => hy.1 N (by omega)) hy.2
  refine ⟨glob_any op hd fun h => hw.data_nil h, ?_, ?_⟩
  · cases op with
    | sum => exact hcols.mono fun y hy => each_sum (.inl rfl) hy
    | mean => exact hcols.mono fun y hy => each_sum (.inr rfl) hy
    | prod =>
      exact gives_of (a.data.length + 1) (fun N hN => (key N (by omega)).1) ⟨_, t₀, ht₀, rfl⟩ fun y ⟨t, h, e⟩ => e ▸ (hcross t h).1
    | var c =>
      exact gives_of (a.data.length + 1) (fun N hN => (key N (by omega)).2.2.1 c) ⟨_, t₀, ht₀, rfl⟩
        fun y ⟨t, h, e⟩ => e ▸ (hcross t h).2.2.2 c
    | std c =>
      exact gives_map (Q := (RedOp.var c).Each a.ncols a.nrows fun j => (a.colVals j : Multiset V)) (a.data.length + 1)
        (fun N hN => (key N (by omega)).2.2.1 c) ⟨_, t₀, ht₀, rfl⟩ (fun y ⟨t, h, e⟩ => e ▸ (hcross t h).2.2.2 c) fun y hy => each_std hy
    | min =>
      exact gives_of (a.data.length + 1) (fun N hN => (key N (by omega)).2.1 _) ⟨_, t₀, ht₀, rfl⟩ fun y ⟨t, h, e⟩ => e ▸ (hcross t h).2.1
    | max =>
      exact gives_of (a.data.length + 1) (fun N hN => (key N (by omega)).2.1 _) ⟨_, t₀, ht₀, rfl⟩ fun y ⟨t, h, e⟩ => e ▸ (hcross t h).2.2.1
  · cases op with
    | sum => exact hrows.mono fun y hy => each_sum (.inl rfl) hy
    | mean => exact hrows.mono fun y hy => each_sum (.inr rfl) hy
    | prod => exact gives_eq (a.data.length + 1) (fun N hN => (row N (by omega)).1) hline.1
    | var c => exact gives_eq (a.data.length + 1) (fun N hN => (row N (by omega)).2.2.1 c) (hline.2.2.2 c)
    | std c =>
      exact gives_map (Q := (RedOp.var c).Each a.nrows a.ncols fun i => (a.rowVals i : Multiset V)) (R := fun r => r = lineVars a.comp c)
        (a.data.length + 1) (fun N hN o => by
          show LineVarsPtr env.dbg N c a.comp o ↔ _
          rw [(row N (by omega)).2.2.1 c]; simp) ⟨_, rfl⟩ (fun r hr => hr ▸ hline.2.2.2 c) fun y hy => each_std hy
    | min => exact gives_eq (a.data.length + 1) (fun N hN => (row N (by omega)).2.1 _) hline.2.1
    | max => exact gives_eq (a.data.length + 1) (fun N hN => (row N (by omega)).2.1 _) hline.2.2.1

/-- The kernels for CSC. -/
theorem csc_any {env : PyEnv V} (he : env.Ok) {a : Csc V} (ha : a.WF) (hm : a.comp.Machine)
    (hl : 8 * ((a.nrows : Int) + 1) ≤ i64Max) (hd : 24 * (a.data.length : Int) ≤ i64Max) (op : RedOp V) :
    Gives (fun N => op.Glob N (.csc a)) (op.kernel.Computes (a.nrows * a.ncols) (a.data : Multiset V)) ∧
    Gives (fun N => op.Cols env N (.csc a)) (op.Each a.ncols a.nrows fun j => (a.colVals j : Multiset V)) ∧
    Gives (fun N => op.Rows env N (.csc a)) (op.Each a.nrows a.ncols fun i => (a.rowVals i : Multiset V)) := by
  have hw : a.WFU := Comp.WF.wfu ha
  have hf : a.comp.Fits := Comp.WFU.fits_of_machine hw hm
  have ht : env.threads < 2 ^ 62 := by have := he.threads; omega
  have key := fun N (hN : a.data.length < N) =>
    row_reductions_csc_ptr hw hm hl (Comp.WF.noRep ha) (by omega) he.pair ht hN env.dbg
  have col := fun N (hN : a.data.length < N) => line_reductions_ptr (a := a.comp) (Comp.WFU.ptrOk hw) hm env.dbg hN
  have hnu : a.ncols ≤ usizeMax := by have := hf.1; change (a.ncols : Int) ≤ i64Max at this; unfold i64Max at this; unfold usizeMax; omega
  have hmu : a.nrows ≤ usizeMax := by unfold i64Max at hl; unfold usizeMax; omega
  have hline := lines_each (a := a.comp) hw hmu
  have hcross : ∀ t, TransposeCscRun env.pairSort env.threads a t → _ := fun t h =>
    cross_each (a := a.comp) hw hf hnu (interleaving_events a.comp) (transposeRun_eq ha hf he.pair h)
  obtain ⟨t₀, ht₀⟩ := transpose_csc_exists ha hf he.pair env.threads
  have hcols : Gives (fun N => SumCols env N (.csc a)) (fun y => y.length = a.ncols ∧ ∀ j, j < a.ncols → AddTree (a.colVals j : Multiset V) (y.getD j 0)) :=
    gives_eq (a.data.length + 1) (fun N hN o => col_sums_csc_ptr (Comp.WFU.ptrOk hw) hm env.dbg (by omega) o) (col_sums_csc_terms a)
  have hrows : Gives (fun N => SumRows env N (.csc a)) (fun y => y.length = a.nrows ∧ ∀ i, i < a.nrows → AddTree (a.rowVals i : Multiset V) (y.getD i 0)) :=
    (gives_wit (a.nrows + 3 * a.data.length + 1025) (row_sums_csc_wit hw hm (by omega) hd)
      (fun N hN => row_sums_csc_ptr hw hm (by omega) hd (by omega))).mono fun y hy => row_sums_csc_terms hw hmu hy
  refine ⟨glob_any op hd fun h => Comp.WFU.data_nil hw (Nat.mul_comm _ _ ▸ h), ?_, ?_⟩
  · cases op with
    | sum => exact hcols.mono fun y hy => each_sum (.inl rfl) hy
    | mean => exact hcols.mono fun y hy => each_sum (.inr rfl) hy
    | prod => exact gives_eq (a.data.length + 1) (fun N hN => (col N (by omega)).1) hline.1
    | var c => exact gives_eq (a.data.length + 1) (fun N hN => (col N (by omega)).2.2.1 c) (hline.2.2.2 c)
    | std c =>
      exact gives_map (Q := (RedOp.var c).Each a.ncols a.nrows fun j => (a.colVals j : Multiset V)) (R := fun r => r = lineVars a.comp c)
        (a.data.length + 1) (fun N hN o => by
          show LineVarsPtr env.dbg N c a.comp o ↔ _
          rw [(col N (by omega)).2.2.1 c]; simp) ⟨_, rfl⟩ (fun r hr => hr ▸ hline.2.2.2 c) fun y hy => each_std hy
    | min => exact gives_eq (a.data.length + 1) (fun N hN => (col N (by omega)).2.1 _) hline.2.1
    | max => exact gives_eq (a.data.length + 1) (fun N hN => (col N (by omega)).2.1 _) hline.2.2.1
  · cases op with
    | sum => exact hrows.mono fun y hy => each_sum (.inl rfl) hy
    | mean => exact hrows.mono fun y hy => each_sum (.inr rfl) hy
    | prod =>
      exact gives_of (a.data.length + 1) (fun N hN => (key N (by omega)).1) ⟨_, t₀, ht₀, rfl⟩ fun y ⟨t, h, e⟩ => e ▸ (hcross t h).1
    | var c =>
      exact gives_of (a.data.length + 1) (fun N hN => (key N (by omega)).2.2 c) ⟨_, t₀, ht₀, rfl⟩
        fun y ⟨t, h, e⟩ => e ▸ (hcross t h).2.2.2 c
    | std c =>
      exact gives_map (Q := (RedOp.var c).Each a.nrows a.ncols fun i => (a.rowVals i : Multiset V)) (a.data.length + 1)
        (fun N hN => (key N (by omega)).2.2 c) ⟨_, t₀, ht₀, rfl⟩ (fun y ⟨t, h, e⟩ => e ▸ (hcross t h).2.2.2 c) fun y hy => each_std hy
    | min =>
      exact gives_of (a.data.length + 1) (fun N hN => (key N (by omega)).2.1 _) ⟨_, t₀, ht₀, rfl⟩ fun y ⟨t, h, e⟩ => e ▸ (hcross t h).2.1
    | max =>
      exact gives_of (a.data.length + 1) (fun N hN => (key N (by omega)).2.1 _) ⟨_, t₀, ht₀, rfl⟩ fun y ⟨t, h, e⟩ => e ▸ (hcross t h).2.2.1

/-- The kernels for COO. -/
theorem coo_any {env : PyEnv V} {a : Coo V} (ha : a.WF) (hi : a.I64)
    (hn : 8 * ((a.nrows : Int) + 1) ≤ i64Max) (hl : 8 * ((a.ncols : Int) + 1) ≤ i64Max)
    (hd : 24 * (a.data.length : Int) ≤ i64Max) (op : RedOp V) :
    Gives (fun N => op.Glob N (.coo a)) (op.kernel.Computes (a.nrows * a.ncols) (a.data : Multiset V)) ∧
    Gives (fun N => op.Cols env N (.coo a)) (op.Each a.ncols a.nrows fun j => (a.colVals j : Multiset V)) ∧
    Gives (fun N => op.Rows env N (.coo a)) (op.Each a.nrows a.ncols fun i => (a.rowVals i : Multiset V)) := by
  have hnu : a.nrows ≤ usizeMax := by unfold i64Max at hn; unfold usizeMax; omega
  have hmu : a.ncols ≤ usizeMax := by unfold i64Max at hl; unfold usizeMax; omega
  have hnil : a.nrows * a.ncols = 0 → a.triples = [] := by
    intro h
    by_contra hne
    obtain ⟨t, l, e⟩ := List.exists_cons_of_ne_nil hne
    have := ha.triple_bounds t (by rw [e]; simp)
    rcases Nat.mul_eq_zero.1 h with h | h <;> omega
  have hdnil : a.nrows * a.ncols = 0 → a.data = [] := by
    intro h
    have := congrArg List.length (hnil h)
    unfold Coo.triples at this
    have h1 := ha.row_length
    have h2 := ha.col_length
    rw [List.length_zip, List.length_zip, List.length_nil] at this
    rw [← List.length_eq_zero_iff]
    omega
  have hrs : ∀ k, slotVals a.rowOps k = (a.rowVals k : Multiset V) := fun k =>
    slotVals_coo a.triples Prod.fst (fun t ht => (ha.triple_bounds t ht).1.1) (fun t ht => (hi.triple t ht).1) k
  have hcs : ∀ k, slotVals a.colOps k = (a.colVals k : Multiset V) := fun k =>
    slotVals_coo a.triples Prod.snd (fun t ht => (ha.triple_bounds t ht).2.1) (fun t ht => (hi.triple t ht).2) k
  have hr0 : a.ncols = 0 → a.rowOps = [] := fun h => by unfold Coo.rowOps; rw [hnil (by rw [h, Nat.mul_zero])]; rfl
  have hc0 : a.nrows = 0 → a.colOps = [] := fun h => by unfold Coo.colOps; rw [hnil (by rw [h, Nat.zero_mul])]; rfl
  have hrl := rowOps_lt ha hi
  have hcl := colOps_lt ha hi
  have tr : ∀ {op : RedOp V} {y : List V}, op.Each a.nrows a.ncols (slotVals a.rowOps) y →
      op.Each a.nrows a.ncols (fun i => (a.rowVals i : Multiset V)) y := fun h => each_congr h rfl rfl fun i _ => hrs i
  have tc : ∀ {op : RedOp V} {y : List V}, op.Each a.ncols a.nrows (slotVals a.colOps) y →
      op.Each a.ncols a.nrows (fun i => (a.colVals i : Multiset V)) y := fun h => each_congr h rfl rfl fun i _ => hcs i
  have hcols : Gives (fun N => SumCols env N (.coo a)) (fun y => y.length = a.ncols ∧ ∀ j, j < a.ncols → AddTree (a.colVals j : Multiset V) (y.getD j 0)) :=
    (gives_wit (a.ncols + 3 * a.data.length + 1025) (col_sums_coo_wit ha hi (by omega) hd)
      (fun N hN => col_sums_coo_ptr ha hi (by omega) hd (by omega))).mono fun y hy => col_sums_coo_terms env.threads ha hi hmu hy
  have hrows : Gives (fun N => SumRows env N (.coo a)) (fun y => y.length = a.nrows ∧ ∀ i, i < a.nrows → AddTree (a.rowVals i : Multiset V) (y.getD i 0)) :=
    (gives_wit (a.nrows + 3 * a.data.length + 1025) (row_sums_coo_wit ha hi (by omega) hd)
      (fun N hN => row_sums_coo_ptr ha hi (by omega) hd (by omega))).mono fun y hy => row_sums_coo_terms env.threads ha hi hnu hy
  have extR := ext_coo (o := minOps V) (join := MinJoin) (fun _ _ => .inl rfl) (fun _ _ => .inr (.inr rfl)) env.threads hrl hr0
  have extR' := ext_coo (o := maxOps V) (join := MaxJoin) (fun _ _ => .inl rfl) (fun _ _ => .inr (.inr rfl)) env.threads hrl hr0
  have extC := ext_coo (o := minOps V) (join := MinJoin) (fun _ _ => .inl rfl) (fun _ _ => .inr (.inr rfl)) env.threads hcl hc0
  have extC' := ext_coo (o := maxOps V) (join := MaxJoin) (fun _ _ => .inl rfl) (fun _ _ => .inr (.inr rfl)) env.threads hcl hc0
  refine ⟨glob_any op hd hdnil, ?_, ?_⟩
  · cases op with
    | sum => exact hcols.mono fun y hy => each_sum (.inl rfl) hy
    | mean => exact hcols.mono fun y hy => each_sum (.inr rfl) hy
    | prod => exact gives_safe (prod_coo env.threads hcl hc0).1 fun y hy => tc ((prod_coo env.threads hcl hc0).2 y hy)
    | var c => exact gives_safe (var_coo env.threads hnu hcl hc0 c).1 fun y hy => tc ((var_coo env.threads hnu hcl hc0 c).2 y hy)
    | std c =>
      have h := var_coo env.threads hnu hcl hc0 c
      exact gives_map (Q := (RedOp.var c).Each a.ncols a.nrows fun j => (a.colVals j : Multiset V)) 0
        (fun _ _ => safeRun_iff h.1) h.1 (fun y hy => tc (h.2 y hy)) fun y hy => each_std hy
    | min => exact gives_safe extC.1 fun y hy => tc (op := .min) (extC.2 y hy)
    | max => exact gives_safe extC'.1 fun y hy => tc (op := .max) (extC'.2 y hy)
  · cases op with
    | sum => exact hrows.mono fun y hy => each_sum (.inl rfl) hy
    | mean => exact hrows.mono fun y hy => each_sum (.inr rfl) hy
    | prod => exact gives_safe (prod_coo env.threads hrl hr0).1 fun y hy => tr ((prod_coo env.threads hrl hr0).2 y hy)
    | var c => exact gives_safe (var_coo env.threads hmu hrl hr0 c).1 fun y hy => tr ((var_coo env.threads hmu hrl hr0 c).2 y hy)
    | std c =>
      have h := var_coo env.threads hmu hrl hr0 c
      exact gives_map (Q := (RedOp.var c).Each a.nrows a.ncols fun j => (a.rowVals j : Multiset V)) 0
        (fun _ _ => safeRun_iff h.1) h.1 (fun y hy => tr (h.2 y hy)) fun y hy => each_std hy
    | min => exact gives_safe extR.1 fun y hy => tr (op := .min) (extR.2 y hy)
    | max => exact gives_safe extR'.1 fun y hy => tr (op := .max) (extR'.2 y hy)

end
end Lacuna
