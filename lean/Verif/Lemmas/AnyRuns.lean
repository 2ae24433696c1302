import Verif.Lemmas.PyStatObj
import Verif.Props.RoundingMul
/-
The reduction kernels on valid matrices in any arithmetic: there is an outcome, the same for every
large bound on the loops, and every outcome is a result.
-/
set_option linter.unusedSectionVars false

namespace Lacuna
variable {V : Type}

/-! ### Scattered sums -/

/-- One result for all large bounds, and only results. -/
theorem gives_wit {α : Type} {run : Nat → Except Fault α → Prop} {R : α → Prop} (N₀ : Nat)
    (h1 : ∃ y, ∀ N, N₀ ≤ N → run N (.ok y)) (h2 : ∀ N, N₀ ≤ N → Returns (run N) R) : Gives run R := by
  obtain ⟨y, hy⟩ := h1
  refine ⟨⟨.ok y, N₀, hy⟩, ?_⟩
  rintro o ⟨M, hM⟩
  exact (h2 (max M N₀) (by omega)).2 o (hM _ (by omega))

/-- All work on one thread. -/
theorem tls_wit {ι A : Type} {items : List ι} {work : A → ι → Except Fault A} {init : A}
    {merge : List A → Except Fault (List V) → Prop}
    {add : A → Nat → V → Except Fault A} {ops : ι → List (Nat × V)} {cell : List (Nat × V) → Option A} {S : A → Prop}
    {M : List A → List V}
    (hw : ∀ x ∈ items, ∀ acc, work acc x = runOps add acc (ops x))
    (hc : ∀ l, SubOps items ops l → ∃ c, runOps add init l = .ok c ∧ cell l = some c ∧ S c)
    (hm : ∀ cells, (∀ c ∈ cells, S c) → merge cells (.ok (M cells)))
    {c : A} (h : cell (items.flatMap ops) = some c) : TlsPtr items work init merge (.ok (M [c])) := by
  obtain ⟨cells, h1, h2, h3⟩ := tls_groups hw hc (division_single items)
  have e : cells = [c] := by
    have : ([items].map (List.map ops)).map List.flatten = [items.flatMap ops] := by
      simp [List.flatMap_def]
    rw [this] at h2
    simp [h] at h2
    exact h2.symm
  subst e
  exact ⟨[items], division_single items, .ok [c], (h1 _).2 rfl, hm _ h3⟩

theorem subOps_all {ι : Type} (items : List ι) (ops : ι → List (Nat × V)) : SubOps items ops (items.flatMap ops) :=
  ⟨Nat.le_refl _, fun _ h => h⟩

section
variable [Zero V] [Add V] {dbg : Bool} {ι : Type} {items : List ι} {ops : ι → List (Nat × V)} {n : Nat}
  (hn : 8 * (n : Int) ≤ i64Max) (hk : ∀ o ∈ items.flatMap ops, o.1 < n)
include hn hk

theorem plain_wit {work : List V → ι → Except Fault (List V)}
    (hw : ∀ x ∈ items, ∀ acc, work acc x = runOps addIdxP acc (ops x)) :
    ∃ y, ∀ F, n < F → TlsPtr items work (List.replicate n 0) (MergeSeq n (mergePlainP F n)) (.ok y) := by
  have hn' := n_le_usize hn
  have hc : ∀ l, SubOps items ops l → ∃ c, runOps addIdxP (List.replicate n 0) l = .ok c ∧
      addAll? (List.replicate n 0) l = some c ∧ c.length = n := fun l hl => plain_cell fun o ho => hk o (hl.2 o ho)
  obtain ⟨c, -, hcell, -⟩ := hc _ (subOps_all items ops)
  refine ⟨_, fun F hF => tls_wit (M := fun cells => cells.foldl (fun y c => addAll y ((List.range n).map fun k => (k, c.getD k 0))) (List.replicate n 0))
    hw hc (fun cells hS => ?_) hcell⟩
  rw [mergeSeq_iff hn, foldlM_merge (n := n) (S := fun c : List V => c.length = n)
    (fun y c hy hc => mergePlainP_eq hy hc (by omega) hF) (fun y c => by rw [addAll_length]) cells hS _ (by simp)]

theorem hash_wit {work : Nat → HMap V → ι → Except Fault (HMap V)} {N : Nat}
    (hw : ∀ F, ∀ x ∈ items, ∀ acc, work F acc x = runOps (hashAdd dbg F) acc (ops x)) (hN : (items.flatMap ops).length ≤ N)
    (hN24 : 24 * (N : Int) ≤ i64Max) {merge : List (HMap V) → Except Fault (List V) → Prop}
    (hm : ∀ cells out, merge cells out ↔ out = cells.foldlM (fun y m => m.drainToP y) (List.replicate n 0)) :
    ∃ y, ∀ F, 3 * N + 1024 ≤ F → TlsPtr items (work F) (HMap.withCapacity 1024) merge (.ok y) := by
  have hn' := n_le_usize hn
  have hc : ∀ F, 3 * N + 1024 ≤ F → ∀ l, SubOps items ops l → ∃ m, runOps (hashAdd dbg F) (HMap.withCapacity 1024) l = .ok m ∧
      (HMap.withCapacity 1024 : HMap V).insertAll l = some m ∧ (HMap.Inv m ∧ ∀ k ∈ m.keys, k = usizeMax ∨ k < n) := by
    intro F hF l hl
    have hl' : ∀ o ∈ l, o.1 < usizeMax := fun o ho => by have := hk o (hl.2 o ho); omega
    obtain ⟨m, h1, h2, h3⟩ := hash_cell (dbg := dbg) (Nat.le_trans hl.1 hN) (fun o ho => by have := hl' o ho; omega) hF hN24
    refine ⟨m, h1, h2, h3, fun k hkk => ?_⟩
    by_cases hu : k = usizeMax
    · exact .inl hu
    · obtain ⟨o, ho, rfl⟩ := (hash_keys hl' h2 k hu).1 hkk
      exact .inr (hk o (hl.2 o ho))
  obtain ⟨c, -, hcell, -⟩ := hc _ (Nat.le_refl _) _ (subOps_all items ops)
  refine ⟨_, fun F hF => tls_wit (M := fun cells => cells.foldl (fun y m => m.drainTo y) (List.replicate n 0))
    (hw F) (hc F hF) (fun cells hS => ?_) hcell⟩
  rw [hm, foldlM_hash (fun m hm => (hS m hm).1) (fun m hm => (hS m hm).2)]

omit hn in
theorem stripe_wit {stripe : Nat} (hs : 0 < stripe)
    {work : List (Option (TouchAcc V)) → ι → Except Fault (List (Option (TouchAcc V)))}
    (hw : ∀ x ∈ items, ∀ acc, work acc x = runOps (stripesAdd n stripe) acc (ops x))
    {merge : Nat → List (List (Option (TouchAcc V))) → Except Fault (List V) → Prop}
    {step : Nat → List V → List (Option (TouchAcc V)) → Except Fault (List V)}
    (hm : ∀ F cells out, merge F cells out ↔ out = cells.foldlM (step F) (List.replicate n 0))
    (hstep : ∀ F, n < F → ∀ y accs, y.length = n → StripesShape n stripe accs →
      step F y accs = .ok (addAll y ((List.range accs.length).flatMap (stripeUpdatesSeq stripe accs)))) :
    ∃ y, ∀ F, n < F → TlsPtr items work (noStripes V n stripe) (merge F) (.ok y) := by
  have hc : ∀ l, SubOps items ops l → ∃ c, runOps (stripesAdd n stripe) (noStripes V n stripe) l = .ok c ∧
      stripeCell n stripe l = some c ∧ StripesShape n stripe c :=
    fun l hl => stripe_cell hs fun o ho => hk o (hl.2 o ho)
  obtain ⟨c, -, hcell, -⟩ := hc _ (subOps_all items ops)
  refine ⟨_, fun F hF => tls_wit (M := fun cells => cells.foldl (fun y accs =>
      addAll y ((List.range accs.length).flatMap (stripeUpdatesSeq stripe accs))) (List.replicate n 0))
    hw hc (fun cells hS => ?_) hcell⟩
  rw [hm, foldlM_merge (n := n) (S := StripesShape n stripe) (hstep F hF) (fun y c => by rw [addAll_length]) cells hS _
    (by simp)]

theorem stripePar_wit {stripe : Nat} (hs : 0 < stripe)
    {work : List (Option (TouchAcc V)) → ι → Except Fault (List (Option (TouchAcc V)))}
    (hw : ∀ x ∈ items, ∀ acc, work acc x = runOps (stripesAdd n stripe) acc (ops x)) :
    ∃ y, ∀ F, n < F → TlsPtr items work (noStripes V n stripe) (MergeStripesPtr dbg F n stripe) (.ok y) := by
  have hc : ∀ l, SubOps items ops l → ∃ c, runOps (stripesAdd n stripe) (noStripes V n stripe) l = .ok c ∧
      stripeCell n stripe l = some c ∧ StripesShape n stripe c :=
    fun l hl => stripe_cell hs fun o ho => hk o (hl.2 o ho)
  obtain ⟨c, -, hcell, -⟩ := hc _ (subOps_all items ops)
  exact ⟨_, fun F hF => tls_wit (M := fun cells => addAll (List.replicate n 0) ((List.range ((n + stripe - 1) / stripe)).flatMap
      fun sid => cells.flatMap fun accs => stripeUpdates n stripe accs sid))
    hw hc (fun cells hS => (mergeStripesPtr_iff hs hn hF hS _).2 rfl) hcell⟩

end

section
variable [Zero V] [Add V] {dbg : Bool} {nthreads : Nat}

theorem col_sums_wit {a : Csr V} (ha : a.WFU) (hm : a.comp.Machine) (hn : 8 * (a.ncols : Int) ≤ i64Max)
    (hd : 24 * (a.data.length : Int) ≤ i64Max) :
    ∃ y, ∀ F, a.ncols + 3 * a.data.length + 1025 ≤ F → ColSumsPtr dbg F nthreads a (.ok y) := by
  have hp : a.comp.PtrOk := Comp.WFU.ptrOk ha
  have hj : dbg = true → ∀ j ∈ a.comp.indices, 0 ≤ j := fun _ => Comp.WFU.nonneg ha
  unfold ColSumsPtr
  simp only []
  split
  · exact ⟨[], fun _ _ => rfl⟩
  split
  · obtain ⟨y, hy⟩ := plain_wit hn (mem_flatMap_of fun i => lineFOps_lt (a := a.comp) ha _ i)
      (fun i hi acc => scatterLineP_eq hp hm hj _ addIdxP acc (List.mem_range.1 hi))
    exact ⟨y, fun F hF => hy F (by omega)⟩
  split
  · obtain ⟨y, hy⟩ := hash_wit hn (mem_flatMap_of fun i => lineFOps_lt (a := a.comp) ha _ i)
      (work := fun F => scatterLineP dbg a.comp (fun _ v => v) (hashAdd dbg F))
      (fun F i hi acc => scatterLineP_eq hp hm hj _ (hashAdd dbg F) acc (List.mem_range.1 hi)) (N := a.data.length)
      (hp.lineFOps_length _) hd (mergeSeq_iff hn _)
    exact ⟨y, fun F hF => hy F (by omega)⟩
  · have hr := hp.rangesP hm dbg
    rw [show rangesP dbg (128 * 1024) a.comp a.nrows 0 0 0 = .ok (lineRanges a.comp) from hr]
    obtain ⟨y, hy⟩ := stripePar_wit (dbg := dbg) (stripe := stripeLen)
      (work := scatterRangeP dbg a.comp (fun _ v => v) (fun _ => false) (stripesAdd a.ncols stripeLen)) hn
      (items := lineRanges a.comp) (ops := rangeFOps a.comp (fun _ v => v) fun _ => false)
      (by rw [ranges_fops]; exact mem_flatMap_of fun i => lineFOps_lt (a := a.comp) ha _ i) (by decide)
      (fun r hr acc => scatterRangeP_eq hp hm hj _ _ _ _ (lineRanges_le r hr))
    exact ⟨y, fun F hF => hy F (by omega)⟩

theorem row_sums_csc_wit {a : Csc V} (ha : a.WFU) (hm : a.comp.Machine) (hn : 8 * (a.nrows : Int) ≤ i64Max)
    (hd : 24 * (a.data.length : Int) ≤ i64Max) :
    ∃ y, ∀ F, a.nrows + 3 * a.data.length + 1025 ≤ F → RowSumsCscPtr dbg F a (.ok y) := by
  have hp : a.comp.PtrOk := Comp.WFU.ptrOk ha
  have hj : dbg = true → ∀ j ∈ a.comp.indices, 0 ≤ j := fun _ => Comp.WFU.nonneg ha
  have hn' := n_le_usize hn
  unfold RowSumsCscPtr
  simp only []
  split
  · exact ⟨[], fun _ _ => rfl⟩
  split
  · obtain ⟨y, hy⟩ := hash_wit hn (mem_flatMap_of fun i => lineFOps_lt (a := a.comp) ha _ i)
      (work := fun F => scatterLineP dbg a.comp (fun _ v => v) (hashAdd dbg F))
      (fun F i hi acc => scatterLineP_eq hp hm hj _ (hashAdd dbg F) acc (List.mem_range.1 hi)) (N := a.data.length)
      (hp.lineFOps_length _) hd (mergeSeq_iff hn _)
    exact ⟨y, fun F hF => hy F (by omega)⟩
  · obtain ⟨y, hy⟩ := stripe_wit (n := a.nrows) (mem_flatMap_of fun i => lineFOps_lt (a := a.comp) ha _ i)
      (stripe := stripeLen) (by decide)
      (fun i hi acc => scatterLineP_eq hp hm hj _ (stripesAdd a.nrows stripeLen) acc (List.mem_range.1 hi))
      (merge := fun F => MergeSeq a.nrows (mergeStripeRawP dbg F stripeLen)) (fun F => mergeSeq_iff hn _)
      fun F hF y accs hy hs => mergeStripeRawP_eq (by decide) hy (by omega) hF hs
    exact ⟨y, fun F hF => hy F (by omega)⟩

theorem row_sums_coo_wit {a : Coo V} (ha : a.WF) (hi : a.I64) (hn : 8 * (a.nrows : Int) ≤ i64Max)
    (hd : 24 * (a.data.length : Int) ≤ i64Max) :
    ∃ y, ∀ F, a.nrows + 3 * a.data.length + 1025 ≤ F → RowSumsCooPtr dbg F nthreads a (.ok y) := by
  have hl := ha.row_length
  have hj : dbg = true → ∀ j ∈ a.row, 0 ≤ j := fun _ j h => (ha.row_bounds j h).1
  unfold RowSumsCooPtr
  simp only []
  split
  · exact ⟨[], fun _ _ => rfl⟩
  split
  · rw [zeroVecP_ok hn]; exact ⟨_, fun _ _ => rfl⟩
  have hlt : ∀ o ∈ (cooItems nthreads a.data.length).flatMap
      (chunkAt (cooChunk nthreads a.data.length) (cooSumOps a.row a.data)), o.1 < a.nrows := by
    rw [coo_items_flat nthreads (cooSumOps_length hl)]
    exact cooSumOps_lt ha.row_bounds hi.1
  split
  · obtain ⟨y, hy⟩ := hash_wit hn hlt
      (work := fun F => scatterChunkP (cooSumOpP dbg a.row a.data) a.data.length (cooChunk nthreads a.data.length) (hashAdd dbg F))
      (fun F t _ acc => cooChunk_work hl hj _ _ _ _) (N := a.data.length)
      (by rw [coo_items_flat nthreads (cooSumOps_length hl), cooSumOps_length hl]) hd (mergeSeq_iff hn _)
    exact ⟨y, fun F hF => hy F (by omega)⟩
  · obtain ⟨y, hy⟩ := stripe_wit (n := a.nrows) (stripe := stripeLen) hlt (by decide)
      (fun t _ acc => cooChunk_work hl hj _ _ _ _) (merge := fun _ => MergeSeq a.nrows (mergeStripeP stripeLen))
      (fun F => mergeSeq_iff hn _) fun F hF y accs hy hs => mergeStripeP_eq (by decide) hy hs
    exact ⟨y, fun F hF => hy F (by omega)⟩

theorem col_sums_coo_wit {a : Coo V} (ha : a.WF) (hi : a.I64) (hn : 8 * (a.ncols : Int) ≤ i64Max)
    (hd : 24 * (a.data.length : Int) ≤ i64Max) :
    ∃ y, ∀ F, a.ncols + 3 * a.data.length + 1025 ≤ F → ColSumsCooPtr dbg F nthreads a (.ok y) := by
  have hl := ha.col_length
  have hj : dbg = true → ∀ j ∈ a.col, 0 ≤ j := fun _ j h => (ha.col_bounds j h).1
  unfold ColSumsCooPtr
  simp only []
  split
  · exact ⟨[], fun _ _ => rfl⟩
  split
  · rw [zeroVecP_ok hn]; exact ⟨_, fun _ _ => rfl⟩
  have hlt : ∀ o ∈ (cooItems nthreads a.data.length).flatMap
      (chunkAt (cooChunk nthreads a.data.length) (cooSumOps a.col a.data)), o.1 < a.ncols := by
    rw [coo_items_flat nthreads (cooSumOps_length hl)]
    exact cooSumOps_lt ha.col_bounds hi.2
  split
  · obtain ⟨y, hy⟩ := hash_wit hn hlt
      (work := fun F => scatterChunkP (cooSumOpP dbg a.col a.data) a.data.length (cooChunk nthreads a.data.length) (hashAdd dbg F))
      (fun F t _ acc => cooChunk_work hl hj _ _ _ _) (N := a.data.length)
      (by rw [coo_items_flat nthreads (cooSumOps_length hl), cooSumOps_length hl]) hd (mergeSeq_iff hn _)
    exact ⟨y, fun F hF => hy F (by omega)⟩
  · obtain ⟨y, hy⟩ := stripePar_wit (dbg := dbg) (stripe := stripeLen) hn hlt (by decide) (fun t _ acc => cooChunk_work hl hj _ _ _ _)
    exact ⟨y, fun F hF => hy F (by omega)⟩

end
end Lacuna
