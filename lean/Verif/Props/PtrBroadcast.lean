import Verif.Lemmas.PtrBroadcast
/-
C69: the broadcasting product of N-D COO arrays at pointer level.  Whatever the arrays hold, the
raw writes and unchecked reads stay inside the two buffers of normalised indices, as long as the
sizes of the buffers, `nnz * ndim` with the common number of axes, fit `usize`.  They are
multiplied without a check: a release build allocates a wrapped size and writes outside.
-/
namespace Lacuna
variable {V : Type} [Zero V] [Add V] [Mul V]

/-- C69: no undefined behaviour, for all arrays, schedules and hash orders, if the buffer sizes fit;
in a debug build always. -/
theorem broadcast_no_ub {dbg : Bool} {F : Nat} {order : List Nat → List Nat → List Nat} {nthreads : Nat}
    {sort : List (Nat × V) → List (Nat × V)} {a b : CooNd V}
    (h : dbg = true ∨ a.data.length * max a.shape.length b.shape.length ≤ usizeMax ∧
      b.data.length * max a.shape.length b.shape.length ≤ usizeMax) {out : Except Fault (CooNd V)}
    (hr : BroadcastPtr dbg F order nthreads sort a b out) : out ≠ .error .ub := by
  show NoUb out
  unfold BroadcastPtr at hr
  simp only [] at hr
  have hda := Nat.le_max_left a.shape.length b.shape.length
  have hdb := Nat.le_max_right a.shape.length b.shape.length
  generalize max a.shape.length b.shape.length = d at *
  cases hs : broadcastShape? (padShape d a.shape) (padShape d b.shape) with
  | none => rw [hs] at hr; rw [show out = .error .panic from hr]; exact NoUb.panic
  | some sh =>
  rw [hs] at hr
  simp only [expectP] at hr
  split at hr
  · rw [hr]; exact NoUb.ok _
  have plan : SafeE (fun p : List Nat × List Nat × List Int × List Int => p.2.2.1.length = a.data.length * d ∧
      p.2.2.2.length = b.data.length * d ∧ a.data.length * d ≤ usizeMax ∧ b.data.length * d ≤ usizeMax)
      (bcPlanP dbg a b d (interMask (padShape d a.shape) (padShape d b.shape)) sh) := by
    have mul : ∀ n, dbg = true ∨ n * d ≤ usizeMax → SafeE (fun l => l = n * d ∧ n * d ≤ usizeMax) (mulUsize dbg n d) := by
      intro n hn
      unfold mulUsize
      split
      · rename_i h'; exact SafeE.ok ⟨rfl, h'⟩
      · rename_i h'
        rcases hn with hn | hn
        · rw [if_pos hn]; exact SafeE.panic
        · exact absurd hn h'
    have zer : ∀ n, SafeE (fun l : List Int => l.length = n) (zerosP n) := by
      intro n
      unfold zerosP
      split
      · exact SafeE.ok (by simp)
      · exact SafeE.panic
    unfold bcPlanP
    refine (SafeE.noUb (NoUb.expectP _)).bind fun ost _ => (SafeE.noUb (NoUb.expectP _)).bind fun ist _ => ?_
    refine (mul a.data.length (h.imp id And.left)).bind fun la h1 => (zer la).bind fun bufA h2 => ?_
    refine (mul b.data.length (h.imp id And.right)).bind fun lb h3 => (zer lb).bind fun bufB h4 => ?_
    exact SafeE.ok ⟨by rw [h2, h1.1], by rw [h4, h3.1], h1.2, h3.2⟩
  cases hp : bcPlanP dbg a b d (interMask (padShape d a.shape) (padShape d b.shape)) sh with
  | error x =>
    rw [hp] at hr
    have := plan.1
    rw [hp] at this
    rw [show out = .error x from hr]
    intro hx; cases hx; exact this rfl
  | ok p =>
  obtain ⟨h1, h2, h3, h4⟩ := plan.2 p hp
  rw [hp] at hr
  obtain ⟨ost, ist, bufA, bufB⟩ := p
  simp only [] at hr h1 h2
  have norm : ∀ {c : CooNd V} {buf : List Int}, c.shape.length ≤ d → c.data.length * d ≤ usizeMax →
      buf.length = c.data.length * d → ∀ o, NormPtr dbg c d buf o → NoUb o := by
    intro c buf h1 h2 h3 o ho
    rcases normPtr_cases h1 h2 h3 ho with rfl | ⟨rfl, -⟩
    · exact NoUb.ok _
    · exact NoUb.panic
  have normLen : ∀ {c : CooNd V} {buf : List Int} {l : List Int}, c.shape.length ≤ d → c.data.length * d ≤ usizeMax →
      buf.length = c.data.length * d → NormPtr dbg c d buf (.ok l) → l.length = c.data.length * d := by
    intro c buf l h1 h2 h3 ho
    rcases normPtr_cases h1 h2 h3 ho with h | ⟨h, -⟩
    · cases h; exact normFlat_length c d
    · cases h
  refine thenR_noUb (norm hda h3 h1) (fun na hna o ho => ?_) hr
  refine thenR_noUb (norm hdb h4 h2) (fun nb hnb o ho => ?_) ho
  have l1 := normLen hda h3 h1 hna
  have l2 := normLen hdb h4 h2 hnb
  unfold BcProductPtr at ho
  generalize interMask (padShape d a.shape) (padShape d b.shape) = mask at ho
  have keys : SafeE (fun k : List Nat × List Nat × Nat => k.1.length = a.data.length ∧ k.2.1.length = b.data.length)
      (bcKeysP dbg order nthreads na nb a.data.length b.data.length d mask ist) := by
    unfold bcKeysP
    refine (SafeE.mapM_length _ fun k hk => keyP_noUb l1 h3 (List.mem_range.1 hk)).bind fun ka hka => ?_
    refine (SafeE.mapM_length _ fun k hk => keyP_noUb l2 h4 (List.mem_range.1 hk)).bind fun kb hkb => ?_
    refine (SafeE.noUb (NoUb.mulUsize _ _ _)).bind fun w _ => (SafeE.noUb (NoUb.divP _ _)).bind fun q _ => ?_
    exact SafeE.ok ⟨by rw [hka, List.length_range], by rw [hkb, List.length_range]⟩
  cases hk : bcKeysP dbg order nthreads na nb a.data.length b.data.length d mask ist with
  | error x =>
    rw [hk] at ho
    have := keys.1
    rw [hk] at this
    rw [show o = .error x from ho]
    intro hx; cases hx; exact this rfl
  | ok k =>
  obtain ⟨k1, k2⟩ := keys.2 k hk
  rw [hk] at ho
  obtain ⟨ka, kb, chunk⟩ := k
  simp only [] at ho k1 k2
  refine thenR_noUb (fun o ho => parCollect_noUb (fun t _ => bcTaskP_noUb ?_ chunk t) ho) (fun parts _ o ho => ?_) ho
  · exact ⟨by rw [l1, k1], by rw [l2, k2], by rw [k1]; exact h3, by rw [k2]; exact h4⟩
  · rw [ho]; exact bcMergeP_noUb parts

/-! ### Valid arrays -/

omit [Mul V] in
theorem collectP_any {dbg : Bool} {F cap N : Nat} {ops : List (Nat × V)}
    (hk : ∀ o ∈ ops, o.1 ≠ usizeMax) (hN : ops.length ≤ N) (hc : cap ≤ N) (hF : 3 * N + 16 ≤ F)
    (h24 : 24 * (N : Int) ≤ i64Max) :
    ∃ m : HMap V, HMap.withCapacityP dbg cap = .ok (HMap.withCapacity cap : HMap V) ∧
      (HMap.withCapacity cap : HMap V).insertAllP dbg F ops = .ok m ∧
      (HMap.withCapacity cap : HMap V).insertAll ops = some m ∧ m.pairsP = .ok m.pairs ∧
      m.pairs.length ≤ ops.length ∧ ∀ e ∈ m.pairs, ∃ o ∈ ops, o.1 = e.1 := by
  have hn := nextPow2_le cap
  obtain ⟨m, e1, e2, -⟩ := HMap.insertAllP_of (dbg := dbg) (F := F) (c := max (nextPow2 cap) 16) (N := N) ops
    (HMap.withCapacity cap) (HMap.inv_withCapacity cap) (.inl (by rw [HMap.withCapacity_length])) hk
    (by show 0 + _ ≤ _; omega) (by omega) (by omega) (by unfold i64Max at *; omega) h24
  obtain ⟨c1, c2, c3, c4⟩ := collectP_of (dbg := dbg) hk hN hc hF h24 e2
  refine ⟨m, c1, c2, e2, c3, c4, fun e he => ?_⟩
  have hs := (withCapacityP_safe (V := V) dbg cap).2 _ c1
  have := (HMap.insertAllP_safe (dbg := dbg) (F := F) ops (HMap.withCapacity cap : HMap V) hs (fun k => ∃ o ∈ ops, o.1 = k)
    (fun k hk => .inr (by
      simp only [HMap.withCapacity, List.mem_replicate] at hk
      exact hk.2)) (fun o ho => .inl ⟨o, ho, rfl⟩)).2 m e1
  unfold HMap.pairs at he
  obtain ⟨h1, h2⟩ := List.mem_filter.1 he
  rcases this.2 e.1 (List.of_mem_zip h1).1 with h | h
  · exact h
  · simp [h] at h2

omit [Zero V] [Add V] [Mul V] in
theorem sumLengths_ok {dbg : Bool} : ∀ (parts : List (List (Nat × V))) (s : Nat), s + (parts.map List.length).sum ≤ usizeMax →
    parts.foldlM (fun s p => addUsize dbg s p.length) s = .ok (s + (parts.map List.length).sum)
  | [], s, _ => by simp; rfl
  | p :: parts, s, h => by
    rw [List.map_cons, List.sum_cons] at h
    rw [List.foldlM_cons, addUsize_eq (by omega), ok_bind, sumLengths_ok parts _ (by omega), List.map_cons, List.sum_cons,
      Nat.add_assoc]

omit [Zero V] [Add V] [Mul V] in
theorem mapM_except_eq {α β : Type} {f : α → Except Fault β} {g : α → β} : ∀ {l : List α}, (∀ x ∈ l, f x = .ok (g x)) →
    l.mapM f = .ok (l.map g)
  | [], _ => rfl
  | x :: l, h => by
    rw [List.mapM_cons, h x (by simp), ok_bind, mapM_except_eq (fun y hy => h y (by simp [hy])), ok_bind]
    rfl

/-- With the shape, the validity and the size of the result. -/
theorem broadcast_ptr_full {dbg : Bool} {F : Nat} {order : List Nat → List Nat → List Nat} (horder : IsCommonKeys order)
    {nthreads : Nat} {sort : List (Nat × V) → List (Nat × V)} (hsort : IsSort sort) {a b : CooNd V}
    (ha : a.WF) (hb : b.WF) (hai : a.I64) (hbi : b.I64) {out : List Nat}
    (hout : IsBroadcast a.shape b.shape out) (hno : out.prod ≤ usizeMax) (hth : max nthreads 1 * 4 ≤ usizeMax)
    (h24 : 24 * ((a.data.length * b.data.length : Nat) : Int) ≤ i64Max)
    (hF : 3 * max 1024 (a.data.length * b.data.length) + 16 ≤ F)
    (hma : 8 * ((a.data.length * out.length : Nat) : Int) ≤ i64Max)
    (hmb : 8 * ((b.data.length * out.length : Nat) : Int) ≤ i64Max)
    (hmo : 8 * ((a.data.length * b.data.length * out.length : Nat) : Int) ≤ i64Max) :
    ∃ r, (∀ o, BroadcastPtr dbg F order nthreads sort a b o ↔ o = .ok r) ∧
      broadcastMulNd order nthreads sort a b = some r ∧ r.shape = out ∧ r.WF ∧ r.I64 ∧
      r.data.length ≤ a.data.length * b.data.length := by
  rw [isBroadcast_iff] at hout
  obtain ⟨hc, rfl⟩ := hout
  unfold broadcastMulNd BroadcastPtr
  simp only
  have hda := Nat.le_max_left a.shape.length b.shape.length
  have hdb := Nat.le_max_right a.shape.length b.shape.length
  generalize hdd : max a.shape.length b.shape.length = d at *
  have hla := padShape_length hda
  have hlb := padShape_length hdb
  have hlo : (List.zipWith max (padShape d a.shape) (padShape d b.shape)).length = d := by
    rw [List.length_zipWith, hla, hlb]; simp
  rw [hlo] at hma hmb hmo
  have hrank : List.zipWith max (padShape d a.shape) (padShape d b.shape) ≠ [] := by
    intro h
    rw [h] at hlo
    have := List.length_pos_of_ne_nil ha.rank
    simp only [List.length_nil] at hlo
    omega
  rw [broadcastShape?_some hc]
  simp only [Option.bind_some, expectP]
  by_cases hemp : a.data = [] ∨ b.data = []
  · rw [if_pos (by simpa using hemp)]
    refine ⟨_, fun o => ?_, rfl, rfl, CooNd.wf_of_inBounds (L := []) hrank (by simp), fun i hi => by simp at hi, by simp⟩
    rw [if_pos (by simpa using hemp)]
  rw [if_neg (by simpa using hemp)]
  simp only [if_neg (show ¬ (a.data.isEmpty || b.data.isEmpty) = true by simpa using hemp)]
  rw [not_or] at hemp
  have hua : a.data.length * d ≤ usizeMax := by unfold i64Max at hma; unfold usizeMax; omega
  have hub : b.data.length * d ≤ usizeMax := by unfold i64Max at hmb; unfold usizeMax; omega
  have hva := normFlat_view ha hda hua
  have hvb := normFlat_view hb hdb hub
  have hnd := fun (bufA : List Int) h => normPtr_ok (dbg := dbg) hda hua (Nat.le_of_eq ha.length.symm) (buf := bufA) h
  have hne := fun (bufB : List Int) h => normPtr_ok (dbg := dbg) hdb hub (Nat.le_of_eq hb.length.symm) (buf := bufB) h
  have hA := padEntries_inBounds ha d
  have hB := padEntries_inBounds hb d
  have hAi := padEntries_i64 hai d
  have hBi := padEntries_i64 hbi d
  have hpa : 0 < (padShape d a.shape).prod := by
    have : a.entries ≠ [] := fun h => hemp.1 (by rw [← CooNd.entries_snd, h]; rfl)
    obtain ⟨e, he⟩ := List.exists_mem_of_ne_nil _ this
    exact prod_pos_of_inBounds (hA _ (List.mem_map.2 ⟨e, he, rfl⟩))
  have hpb : 0 < (padShape d b.shape).prod := by
    have : b.entries ≠ [] := fun h => hemp.2 (by rw [← CooNd.entries_snd, h]; rfl)
    obtain ⟨e, he⟩ := List.exists_mem_of_ne_nil _ this
    exact prod_pos_of_inBounds (hB _ (List.mem_map.2 ⟨e, he, rfl⟩))
  have hsa := padEntries_snd a d
  have hsb := padEntries_snd b d
  have hlA := padEntries_length a d
  have hlB := padEntries_length b d
  rw [normCoords_eq ha, normCoords_eq hb]
  generalize padEntries d a = PA at *
  generalize padEntries d b = PB at *
  generalize padShape d a.shape = ash at *
  generalize padShape d b.shape = bsh at *
  have hop := out_pos hc hpa hpb
  have hNO : NoOverflow (List.zipWith max ash bsh) := noOverflow_of_pos hop hno
  obtain ⟨ist, i1, i2, i3⟩ := interStrides?_spec (interMask ash bsh) (List.zipWith max ash bsh) hop hno
    (by simp [interMask])
  have hml : (interMask ash bsh).length = d := by rw [interMask, List.length_zipWith, hla, hlb]; simp
  have hplan : bcPlanP dbg a b d (interMask ash bsh) (List.zipWith max ash bsh) =
      .ok (sufProds (List.zipWith max ash bsh), ist, List.replicate (a.data.length * d) 0,
        List.replicate (b.data.length * d) 0) := by
    unfold bcPlanP
    rw [strides?_eq hNO, i1]
    simp only [expectP, ok_bind]
    rw [mulUsize_eq hua, ok_bind, zerosP_ok hma, ok_bind, mulUsize_eq hub, ok_bind, zerosP_ok hmb, ok_bind]
    rfl
  rw [hplan, strides?_eq hNO, i1]
  simp only [Option.bind_some]
  simp only [thenR_det (hnd _ (List.length_replicate ..)), thenR_det (hne _ (List.length_replicate ..))]
  have hkey1 : ∀ (P : List (List Int × V)) (sh : List Nat),
      (maskSel (interMask ash bsh) sh = maskSel (interMask ash bsh) (List.zipWith max ash bsh)) → sh.length = d →
      (∀ e ∈ P, InBounds sh e.1) → (∀ e ∈ P, ∀ i ∈ e.1, i ≤ i64Max) →
      ∀ e ∈ P, keyLoop (interMask ash bsh) e.1 ist 0 = some (ikey ash bsh e.1) := by
    intro P sh hsh hlen hP hPi e he
    have hin := inBounds_maskSel (hP e he) (interMask ash bsh)
    rw [hsh] at hin
    rw [keyLoop_eq _ _ _ _ 0 (by rw [(hP e he).length, hlen, hml]) (by rw [i2, hlo, hml]) i3 hin ?_ (hPi e he)]
    · rw [Nat.zero_add]; rfl
    · have := prod_sublist_le (maskSel_sublist (interMask ash bsh) (List.zipWith max ash bsh)) hop
      omega
  have hkeyA := hkey1 PA ash (mask_shape hc).1 hla hA hAi
  have hkeyB := hkey1 PB bsh (mask_shape hc).2 hlb hB hBi
  have hkeyM : ∀ (P : List (List Int × V)), (∀ e ∈ P, keyLoop (interMask ash bsh) e.1 ist 0 = some (ikey ash bsh e.1)) →
      (P.map Prod.fst).mapM (fun x => keyLoop (interMask ash bsh) x ist 0) = some ((P.map Prod.fst).map (ikey ash bsh)) := by
    intro P hP
    apply mapM_some
    intro x hx
    obtain ⟨e, he, rfl⟩ := List.mem_map.1 hx
    exact hP e he
  rw [hkeyM PA hkeyA, hkeyM PB hkeyB]
  simp only [Option.bind_some]
  rw [show a.data = PA.map Prod.snd from hsa.symm, show b.data = PB.map Prod.snd from hsb.symm, zip_keys, zip_keys]
  rw [List.map_map, List.map_map]
  obtain ⟨hnd', hmem⟩ := horder (PA.map (ikey ash bsh ∘ Prod.fst)) (PB.map (ikey ash bsh ∘ Prod.fst))
  have hkeyP : ∀ (P : List (List Int × V)) (norm : List Int), NormView d norm P →
      (∀ e ∈ P, keyLoop (interMask ash bsh) e.1 ist 0 = some (ikey ash bsh e.1)) →
      (List.range P.length).mapM (keyP dbg norm d (interMask ash bsh) ist) = .ok (P.map (ikey ash bsh ∘ Prod.fst)) := by
    intro P norm hv hP
    rw [mapM_except_eq (g := fun k => (P.map (ikey ash bsh ∘ Prod.fst)).getD k 0)]
    · congr 1
      apply List.ext_getElem
      · simp
      · intro i h1 h2
        simp only [List.length_map] at h2
        simp [h2]
    · intro k hk
      have hk := List.mem_range.1 hk
      rw [keyP_of hv hml (by rw [i2, hlo]) hk (hP _ (List.getElem_mem hk))]
      simp [hk]
  generalize hch : max 1 ((order (PA.map (ikey ash bsh ∘ Prod.fst)) (PB.map (ikey ash bsh ∘ Prod.fst))).length /
    (max nthreads 1 * 4)) = chunk
  have hcp : 0 < chunk := by omega
  have hkeys : bcKeysP dbg order nthreads (normFlat a d) (normFlat b d) a.data.length b.data.length d (interMask ash bsh) ist =
      .ok (PA.map (ikey ash bsh ∘ Prod.fst), PB.map (ikey ash bsh ∘ Prod.fst), chunk) := by
    unfold bcKeysP
    rw [← hlA, ← hlB, hkeyP PA _ hva hkeyA, ok_bind, hkeyP PB _ hvb hkeyB, ok_bind, mulUsize_eq hth, ok_bind]
    unfold divP
    rw [if_neg (by omega), ok_bind, hch]
    rfl
  unfold BcProductPtr
  simp only [hkeys]
  have hview : BcView ⟨a, b, d, ash, sufProds (List.zipWith max ash bsh), normFlat a d, normFlat b d,
      PA.map (ikey ash bsh ∘ Prod.fst), PB.map (ikey ash bsh ∘ Prod.fst),
      order (PA.map (ikey ash bsh ∘ Prod.fst)) (PB.map (ikey ash bsh ∘ Prod.fst))⟩ ash bsh PA PB :=
    ⟨hc, hno, rfl, hla.symm, rfl, hva, hvb, hsa.symm, hsb.symm, rfl, rfl, hA, hB, hAi, hBi⟩
  generalize order (PA.map (ikey ash bsh ∘ Prod.fst)) (PB.map (ikey ash bsh ∘ Prod.fst)) = keys at *
  -- the products
  have hprodlt : ∀ ks : List Nat, ∀ e ∈ (ks.map (kprods ash bsh PA PB)).flatten,
      ∃ x, InBounds (List.zipWith max ash bsh) x ∧ (∀ i ∈ x, i ≤ i64Max) ∧ e.1 = rowMajor (List.zipWith max ash bsh) x := by
    intro ks e he
    obtain ⟨l, hl, he⟩ := List.mem_flatten.1 he
    obtain ⟨k, -, rfl⟩ := List.mem_map.1 hl
    obtain ⟨l', hl', he⟩ := List.mem_flatten.1 he
    obtain ⟨ea, hea, rfl⟩ := List.mem_map.1 hl'
    obtain ⟨eb, heb, rfl⟩ := List.mem_map.1 he
    have h1 := (List.mem_filter.1 hea).1
    have h2 := (List.mem_filter.1 heb).1
    exact ⟨_, pick_inBounds hc (hA _ h1) (hB _ h2), pick_i64 ash (hAi _ h1) (hBi _ h2), rfl⟩
  have hops : ∀ ks : List Nat, ∀ o ∈ (ks.map (kprods ash bsh PA PB)).flatten, o.1 ≠ usizeMax := by
    intro ks o ho
    obtain ⟨x, hx, -, hx'⟩ := hprodlt ks o ho
    have := rowMajor_lt hx
    omega
  have hchunk := chunksOf_eq_range hcp keys
  have hfl := chunksOf_flatten hcp keys
  rw [hchunk] at hfl
  have hsub : ∀ t, (chunkAt chunk keys t).Nodup := fun t =>
    List.Nodup.sublist ((List.take_sublist _ _).trans (List.drop_sublist _ _)) hnd'
  have hpart : ∀ ks : List Nat, ks.Nodup → ∃ m : HMap V,
      HMap.withCapacityP dbg 1024 = .ok (HMap.withCapacity 1024 : HMap V) ∧
      (HMap.withCapacity 1024 : HMap V).insertAllP dbg F ((ks.map (kprods ash bsh PA PB)).flatten) = .ok m ∧
      (HMap.withCapacity 1024 : HMap V).insertAll ((ks.map (kprods ash bsh PA PB)).flatten) = some m ∧
      m.pairsP = .ok m.pairs ∧
      m.pairs.length ≤ ((ks.map (kprods ash bsh PA PB)).flatten).length ∧
      ∀ e ∈ m.pairs, ∃ o ∈ (ks.map (kprods ash bsh PA PB)).flatten, o.1 = e.1 := by
    intro ks hks
    have := kprods_length_le (ash := ash) (bsh := bsh) (PA := PA) (PB := PB) ks hks
    rw [hlA, hlB] at this
    exact collectP_any (N := max 1024 (a.data.length * b.data.length)) (hops ks) (by omega) (by omega) hF
      (by unfold i64Max at *; omega)
  have : Nonempty (HMap V) := ⟨HMap.withCapacity 1⟩
  choose! mk mk1 mk2 mk3 mk4 mk5 mk6 using hpart
  have htask : ∀ t, t < (keys.length + chunk - 1) / chunk → bcTaskP dbg F ⟨a, b, d, ash,
      sufProds (List.zipWith max ash bsh), normFlat a d, normFlat b d,
      PA.map (ikey ash bsh ∘ Prod.fst), PB.map (ikey ash bsh ∘ Prod.fst), keys⟩ chunk t =
      .ok (mk (chunkAt chunk keys t)).pairs := by
    intro t ht
    rw [bcTaskP_eq hview (fun key hk => (hmem key).1 hk) hcp ht ?_, mk1 _ (hsub t), ok_bind, mk2 _ (hsub t), ok_bind,
      mk4 _ (hsub t)]
    have hkl : keys.length ≤ PA.length := by
      have : keys.length ≤ (PA.map (ikey ash bsh ∘ Prod.fst)).length :=
        (List.subperm_of_subset hnd' fun k hk => ((hmem k).1 hk).1).length_le
      rwa [List.length_map] at this
    have hcl : chunk ≤ keys.length + 1 := by
      have := Nat.div_le_self keys.length (max nthreads 1 * 4)
      omega
    have hb1 : 1 ≤ b.data.length := List.length_pos_iff.2 hemp.2
    have : a.data.length * 1 ≤ a.data.length * b.data.length := Nat.mul_le_mul_left _ hb1
    simp only
    unfold i64Max at h24
    unfold usizeMax
    omega
  simp only [thenR_det (parCollect_ok htask)]
  -- the list level
  have hcps : ∀ ks : List Nat, ks.Nodup → chunkPairs ash (sufProds (List.zipWith max ash bsh))
      (PA.map fun e => (ikey ash bsh e.1, (e.1, e.2))) (PB.map fun e => (ikey ash bsh e.1, (e.1, e.2))) ks =
      some (mk ks).pairs := by
    intro ks hks
    unfold chunkPairs
    rw [mapM_some (g := kprods ash bsh PA PB) (fun k _ => keyOps_eq hc hno hA hB hAi hBi k), Option.bind_some, mk3 ks hks]
    rfl
  have hlist : (chunksOf chunk keys).mapM (chunkPairs ash (sufProds (List.zipWith max ash bsh))
      (PA.map fun e => (ikey ash bsh e.1, (e.1, e.2))) (PB.map fun e => (ikey ash bsh e.1, (e.1, e.2)))) =
      some ((List.range ((keys.length + chunk - 1) / chunk)).map fun t => (mk (chunkAt chunk keys t)).pairs) := by
    rw [hchunk, mapM_some (g := fun ks => (mk ks).pairs)]
    · rw [List.map_map]; rfl
    · intro ks hks
      obtain ⟨t, -, rfl⟩ := List.mem_map.1 hks
      exact hcps _ (hsub t)
  rw [hlist]
  simp only [Option.bind_some]
  -- the parts
  have hlen : (((List.range ((keys.length + chunk - 1) / chunk)).map fun t => (mk (chunkAt chunk keys t)).pairs).map
      List.length).sum ≤ a.data.length * b.data.length := by
    have h1 := kprods_length_le (ash := ash) (bsh := bsh) (PA := PA) (PB := PB) keys hnd'
    rw [hlA, hlB] at h1
    refine Nat.le_trans ?_ h1
    conv_rhs => rw [← hfl]
    generalize List.range ((keys.length + chunk - 1) / chunk) = ts
    clear hlist hfl htask
    induction ts with
    | nil => simp
    | cons t ts ih =>
      have := mk5 _ (hsub t)
      rw [List.map_cons, List.map_cons, List.sum_cons, List.map_cons, List.flatten_cons, List.map_append,
        List.flatten_append, List.length_append]
      omega
  have hms : ∀ e ∈ ((List.range ((keys.length + chunk - 1) / chunk)).map fun t => (mk (chunkAt chunk keys t)).pairs).flatten,
      ∃ x, InBounds (List.zipWith max ash bsh) x ∧ (∀ i ∈ x, i ≤ i64Max) ∧
        e.1 = rowMajor (List.zipWith max ash bsh) x := by
    intro e he
    obtain ⟨l, hl, he⟩ := List.mem_flatten.1 he
    obtain ⟨t, -, rfl⟩ := List.mem_map.1 hl
    obtain ⟨o, ho, ho'⟩ := mk6 _ (hsub t) e he
    rw [← ho']
    exact hprodlt _ o ho
  generalize (List.range ((keys.length + chunk - 1) / chunk)).map (fun t => (mk (chunkAt chunk keys t)).pairs) = parts at *
  have hfl2 : parts.flatten.length = (parts.map List.length).sum := List.length_flatten
  unfold bcMergeP
  rw [sumLengths_ok parts 0 (by unfold i64Max at h24; unfold usizeMax; omega), Nat.zero_add]
  simp only [ok_bind, insertAllP_flatten]
  generalize parts.flatten = M at *
  obtain ⟨E, hE, hEb, hEi⟩ : ∃ E : List (List Int × V),
      M = E.map (fun e => (rowMajor (List.zipWith max ash bsh) e.1, e.2)) ∧
      (∀ e ∈ E, InBounds (List.zipWith max ash bsh) e.1) ∧ (∀ e ∈ E, ∀ i ∈ e.1, i ≤ i64Max) := by
    clear hfl2
    induction M with
    | nil => exact ⟨[], rfl, by simp, by simp⟩
    | cons e M ih =>
      obtain ⟨E, h1, h2, h3⟩ := ih (fun e' he' => hms e' (by simp [he']))
      obtain ⟨x, hx, hxi, hxe⟩ := hms e (by simp)
      refine ⟨(x, e.2) :: E, ?_, ?_, ?_⟩
      · rw [List.map_cons, ← h1, ← hxe]
      · intro e' he'
        rcases List.mem_cons.1 he' with rfl | he'
        · exact hx
        · exact h2 e' he'
      · intro e' he'
        rcases List.mem_cons.1 he' with rfl | he'
        · exact hxi
        · exact h3 e' he'
  have hEl : E.length = M.length := by rw [hE, List.length_map]
  obtain ⟨m, L, c1, c2, c3, c4, c5, c6, c7, c8⟩ := collectNdP (dbg := dbg) (F := F) (cap := (parts.map List.length).sum)
    (N := max 1024 (a.data.length * b.data.length)) hsort hNO hEb hEi (by omega) (by omega) hF
    (by unfold i64Max at *; omega)
  rw [← hE] at c2 c3
  have hLb : L.length ≤ a.data.length * b.data.length := by omega
  have hLd := Nat.mul_le_mul_right d hLb
  refine ⟨CooNd.ofEntries _ L, fun o => ?_, ?_, rfl, CooNd.wf_of_inBounds hrank c7, CooNd.i64_ofEntries c8, ?_⟩
  rotate_left
  · rw [c3]
    show some (ndBuild _ _ (sort m.pairs)) = _
    rw [c5, ndBuild_eq c7 c8]
  · show (L.map Prod.snd).length ≤ _
    rw [List.length_map, List.length_map, List.length_map, hlA, hlB]
    exact hLb
  rw [c1, ok_bind, c2, ok_bind, c4, ok_bind, c5, ndBuildP_ofEntries hNO c7 c8 (by omega) (by rw [hlo]; omega), ndBuild_eq c7 c8]

/-- C69: on valid arrays, for every hash order, number of threads, schedule and sort, with or
without debug assertions, the kernel returns the result of the list-level model. -/
theorem broadcast_ptr {dbg : Bool} {F : Nat} {order : List Nat → List Nat → List Nat} (horder : IsCommonKeys order)
    {nthreads : Nat} {sort : List (Nat × V) → List (Nat × V)} (hsort : IsSort sort) {a b : CooNd V}
    (ha : a.WF) (hb : b.WF) (hai : a.I64) (hbi : b.I64) {out : List Nat}
    (hout : IsBroadcast a.shape b.shape out) (hno : out.prod ≤ usizeMax) (hth : max nthreads 1 * 4 ≤ usizeMax)
    (h24 : 24 * ((a.data.length * b.data.length : Nat) : Int) ≤ i64Max)
    (hF : 3 * max 1024 (a.data.length * b.data.length) + 16 ≤ F)
    (hma : 8 * ((a.data.length * out.length : Nat) : Int) ≤ i64Max)
    (hmb : 8 * ((b.data.length * out.length : Nat) : Int) ≤ i64Max)
    (hmo : 8 * ((a.data.length * b.data.length * out.length : Nat) : Int) ≤ i64Max) :
    ∃ r, (∀ o, BroadcastPtr dbg F order nthreads sort a b o ↔ o = .ok r) ∧
      broadcastMulNd order nthreads sort a b = some r := by
  obtain ⟨r, h1, h2, -⟩ := broadcast_ptr_full (dbg := dbg) (F := F) horder hsort ha hb hai hbi hout hno hth h24 hF hma hmb hmo
  exact ⟨r, h1, h2⟩

/-- C69: entry for entry, in arithmetic where products distribute over sums: every run returns, and
every cell of the result is the product of the cells of the two arrays it is broadcast from. -/
theorem broadcast_ptr_correct {W : Type} [NonUnitalNonAssocSemiring W] {dbg : Bool} {F : Nat}
    {order : List Nat → List Nat → List Nat} (horder : IsCommonKeys order)
    {nthreads : Nat} {sort : List (Nat × W) → List (Nat × W)} (hsort : IsSort sort) {a b : CooNd W}
    (ha : a.WF) (hb : b.WF) (hai : a.I64) (hbi : b.I64) {out : List Nat}
    (hout : IsBroadcast a.shape b.shape out) (hno : out.prod ≤ usizeMax) (hth : max nthreads 1 * 4 ≤ usizeMax)
    (h24 : 24 * ((a.data.length * b.data.length : Nat) : Int) ≤ i64Max)
    (hF : 3 * max 1024 (a.data.length * b.data.length) + 16 ≤ F)
    (hma : 8 * ((a.data.length * out.length : Nat) : Int) ≤ i64Max)
    (hmb : 8 * ((b.data.length * out.length : Nat) : Int) ≤ i64Max)
    (hmo : 8 * ((a.data.length * b.data.length * out.length : Nat) : Int) ≤ i64Max) :
    ∃ r, (∀ o, BroadcastPtr dbg F order nthreads sort a b o ↔ o = .ok r) ∧ r.shape = out ∧ r.WF ∧ r.Sorted ∧
      ∀ y, InBounds out y → r.val y = a.val (bcastIndex a.shape y) * b.val (bcastIndex b.shape y) := by
  obtain ⟨r, h1, h2⟩ := broadcast_ptr (dbg := dbg) (F := F) horder hsort ha hb hai hbi hout hno hth h24 hF hma hmb hmo
  obtain ⟨r', h3, h4⟩ := broadcast_mul_correct horder nthreads hsort ha hb hai hbi hout hno
  rw [h3] at h2
  cases h2
  exact ⟨_, h1, h4⟩

example (dbg : Bool) : ∃ r, (∀ o, BroadcastPtr dbg 5000 (fun la lb => (la.filter fun k => lb.contains k).dedup) 4
      (fun l => l.mergeSort (fun a b => decide (a.1 ≤ b.1))) exP exR3 o ↔ o = .ok r) ∧ r.shape = [2, 3, 2] ∧
    r.val [0, 2, 1] = -16 ∧ r.val [1, 0, 0] = 10 ∧ r.val [1, 1, 0] = 0 := by
  obtain ⟨r, h1, h2, -, -, h3⟩ := broadcast_ptr_correct (dbg := dbg) (F := 5000) (nthreads := 4) isCommonKeys_filter
    isSort_mergeSort exP_wf exR3_wf (by unfold CooNd.I64; decide) (by unfold CooNd.I64; decide) exBcast (by decide)
    (by decide) (by decide) (by decide) (by decide) (by decide) (by decide)
  refine ⟨r, h1, h2, ?_⟩
  rw [h3, h3, h3]
  · decide
  all_goals exact .cons (by decide) (.cons (by decide) (.cons (by decide) .nil))

/-- Shapes that do not broadcast against each other are rejected by a panic before anything is
allocated. -/
theorem broadcast_ptr_incompatible {dbg : Bool} {F : Nat} {order : List Nat → List Nat → List Nat} {nthreads : Nat}
    {sort : List (Nat × V) → List (Nat × V)} {a b : CooNd V} (h : ∀ out, ¬ IsBroadcast a.shape b.shape out)
    (o : Except Fault (CooNd V)) : BroadcastPtr dbg F order nthreads sort a b o ↔ o = .error .panic := by
  unfold BroadcastPtr
  simp only []
  cases hs : broadcastShape? (padShape (max a.shape.length b.shape.length) a.shape)
      (padShape (max a.shape.length b.shape.length) b.shape) with
  | none => exact Iff.rfl
  | some sh =>
    have hc := broadcastShape?_compat (by
      rw [padShape_length (Nat.le_max_left ..), padShape_length (Nat.le_max_right ..)]) hs
    exact absurd (isBroadcast_iff.2 ⟨hc, rfl⟩) (h _)

example (dbg : Bool) (F : Nat) (order nthreads sort) (o : Except Fault (CooNd Int)) :
    BroadcastPtr dbg F order nthreads sort exR3 ⟨[2, 2], [0, 1], [7]⟩ o ↔ o = .error .panic :=
  broadcast_ptr_incompatible (fun out h => by
    rw [isBroadcast_iff] at h
    have := h.1
    revert this
    show ¬ List.Forall₂ _ [3, 1] [2, 2]
    intro h
    cases h with | cons h _ => omega) o

/-! ### The wrapped size -/

omit [Zero V] [Add V] [Mul V] in
theorem thenR_err {α β : Type} {R : Except Fault α → Prop} {S : α → Except Fault β → Prop} {x : Fault}
    (h : ∀ o, R o ↔ o = .error x) (out : Except Fault β) : ThenR R S out ↔ out = .error x := by
  unfold ThenR
  constructor
  · rintro ⟨o, h1, h2⟩
    rw [(h o).1 h1] at h2
    exact h2
  · rintro rfl
    exact ⟨_, (h _).2 rfl, rfl⟩

omit [Zero V] [Add V] [Mul V] in
/-- A buffer smaller than the entries need, in a release build. -/
theorem normPtr_short {a : CooNd V} {d : Nat} (hI : a.data.length * a.shape.length ≤ a.indices.length)
    (hU : a.data.length * a.shape.length ≤ usizeMax) (hd : a.shape.length ≤ d) {buf : List Int}
    (hb : buf.length < a.data.length * d) (hc : buf.length ≤ usizeMax) (o : Except Fault (List Int)) :
    NormPtr false a d buf o ↔ o = .error .ub := by
  have hpos : 0 < d := by
    rcases Nat.eq_zero_or_pos d with h | h
    · rw [h] at hb; omega
    · exact h
  generalize hcap : buf.length = cap at *
  have put : ∀ p (v : Int), NoPanic (MutPtr.put ⟨cap, 0⟩ p v) := by
    intro p v
    unfold MutPtr.put MutPtr.add
    dsimp only
    split
    · rw [ok_bind]
      unfold MutPtr.write
      split
      · exact .ok rfl
      · exact .inl rfl
    · exact .inl rfl
  have step : ∀ k, k < a.data.length → ∀ bn i, i < d → ∀ evs,
      NoPanic (normStepP false a.indices (d - a.shape.length) cap (k * a.shape.length) bn evs i) := by
    intro k hk bn i hi evs
    have h1 := block_fits (d := a.shape.length) hk
    unfold normStepP
    refine NoPanic.bind ?_ fun v _ => NoPanic.bind (.inr (addUsize_rel _ _)) fun p _ =>
      NoPanic.bind (put p v) fun w _ => .ok rfl
    unfold normValP
    split
    · rw [addUsize_eq (by omega), ok_bind, index_eq (by omega)]
      exact .ok rfl
    · exact .ok rfl
  have item : ∀ k, k < a.data.length → NoPanic (normItemP false a d cap k) ∧
      (k = cap / d → normItemP false a d cap k = .error .ub) := by
    intro k hk
    have h1 := block_fits (d := a.shape.length) hk
    obtain ⟨bn, hbn⟩ := mulUsize_rel k d
    have e : normItemP false a d cap k = (List.range d).foldlM
        (normStepP false a.indices (d - a.shape.length) cap (k * a.shape.length) bn) [] := by
      unfold normItemP
      rw [mulUsize_eq (by omega), ok_bind, hbn, ok_bind]
    obtain ⟨g1, g2⟩ := NoPanic.foldlM_ub (f := normStepP false a.indices (d - a.shape.length) cap (k * a.shape.length) bn)
      (List.range d) (fun i hi evs => step k hk bn i (List.mem_range.1 hi) evs) []
    rw [e]
    refine ⟨g1, fun hkc => g2 ⟨cap % d, List.mem_range.2 (Nat.mod_lt _ hpos), fun evs => ?_⟩⟩
    have h2 := Nat.div_add_mod cap d
    have h3 : k * d = d * (cap / d) := by rw [hkc, Nat.mul_comm]
    rw [mulUsize_eq (by omega)] at hbn
    cases hbn
    have hm := Nat.mod_lt cap hpos
    unfold normStepP
    have hval : ∃ v, normValP false a.indices (d - a.shape.length) (k * a.shape.length) (cap % d) = .ok v := by
      unfold normValP
      split
      · rw [addUsize_eq (by omega), ok_bind, index_eq (by omega)]
        exact ⟨_, rfl⟩
      · exact ⟨_, rfl⟩
    obtain ⟨v, hv⟩ := hval
    rw [hv, ok_bind, addUsize_eq (by omega), ok_bind, show k * d + cap % d = cap by omega]
    have : MutPtr.put ⟨cap, 0⟩ cap v = .error .ub := by
      unfold MutPtr.put MutPtr.add
      dsimp only
      split
      · rw [ok_bind]
        unfold MutPtr.write
        rw [if_neg (by dsimp only; omega)]
      · rfl
    rw [this]
    rfl
  have hkc : cap / d < a.data.length := by rw [Nat.div_lt_iff_lt_mul hpos]; exact hb
  unfold NormPtr
  rw [hcap]
  refine thenR_err (fun o => ?_) o
  constructor
  · intro h
    cases o with
    | error x =>
      obtain ⟨k, hk, he⟩ := h
      rcases (item k (List.mem_range.1 hk)).1 with h | ⟨y, h⟩
      · rw [h] at he; cases he; rfl
      · rw [h] at he; cases he
    | ok evs =>
      have h5 : (List.range a.data.length).map (normItemP false a d cap) = evs.map .ok := h
      have : normItemP false a d cap (cap / d) ∈ evs.map (Except.ok (ε := Fault)) := by
        rw [← h5]; exact List.mem_map_of_mem (List.mem_range.2 hkc)
      obtain ⟨y, _, hy⟩ := List.mem_map.1 this
      rw [(item _ hkc).2 rfl] at hy; cases hy
  · rintro rfl
    exact ⟨_, List.mem_range.2 hkc, (item _ hkc).2 rfl⟩

/-- C69, disagreement: two valid arrays whose shapes broadcast, but whose numbers of entries and
axes multiply past `usize`.  Every run of the release build writes outside the buffer. -/
theorem broadcast_size_wraps {F : Nat} {order : List Nat → List Nat → List Nat} {nthreads : Nat}
    {sort : List (Nat × V) → List (Nat × V)} {a b : CooNd V} (ha : a.WF) (hb : b.WF) {out : List Nat}
    (hout : IsBroadcast a.shape b.shape out) (hno : out.prod ≤ usizeMax) (hne : b.data ≠ [])
    (hU : a.data.length * a.shape.length ≤ usizeMax) (hN : usizeMax < a.data.length * out.length)
    (hza : 8 * ((a.data.length * out.length % 2 ^ 64 : Nat) : Int) ≤ i64Max)
    (hzb : 8 * ((b.data.length * out.length % 2 ^ 64 : Nat) : Int) ≤ i64Max)
    (o : Except Fault (CooNd V)) : BroadcastPtr false F order nthreads sort a b o ↔ o = .error .ub := by
  rw [isBroadcast_iff] at hout
  obtain ⟨hc, rfl⟩ := hout
  unfold BroadcastPtr
  simp only
  have hda := Nat.le_max_left a.shape.length b.shape.length
  have hdb := Nat.le_max_right a.shape.length b.shape.length
  generalize hdd : max a.shape.length b.shape.length = d at *
  have hlo : (List.zipWith max (padShape d a.shape) (padShape d b.shape)).length = d := by
    rw [List.length_zipWith, padShape_length hda, padShape_length hdb]; simp
  rw [hlo] at hN hza hzb
  have hemp : a.data ≠ [] := by rintro h; rw [h] at hN; simp at hN
  rw [broadcastShape?_some hc]
  simp only [expectP]
  rw [if_neg (by simpa using ⟨hemp, hne⟩)]
  have hA := padEntries_inBounds ha d
  have hB := padEntries_inBounds hb d
  have hpa : 0 < (padShape d a.shape).prod := by
    have : a.entries ≠ [] := fun h => hemp (by rw [← CooNd.entries_snd, h]; rfl)
    obtain ⟨e, he⟩ := List.exists_mem_of_ne_nil _ this
    exact prod_pos_of_inBounds (hA _ (List.mem_map.2 ⟨e, he, rfl⟩))
  have hpb : 0 < (padShape d b.shape).prod := by
    have : b.entries ≠ [] := fun h => hne (by rw [← CooNd.entries_snd, h]; rfl)
    obtain ⟨e, he⟩ := List.exists_mem_of_ne_nil _ this
    exact prod_pos_of_inBounds (hB _ (List.mem_map.2 ⟨e, he, rfl⟩))
  have hop := out_pos hc hpa hpb
  have hNO := noOverflow_of_pos hop hno
  obtain ⟨ist, i1, -, -⟩ := interStrides?_spec (interMask (padShape d a.shape) (padShape d b.shape)) _ hop hno
    (by simp [interMask])
  have mul : ∀ n, mulUsize false n d = .ok (n * d % 2 ^ 64) := by
    intro n
    unfold mulUsize
    split
    · rename_i h
      rw [Nat.mod_eq_of_lt (by unfold usizeMax at h; omega)]
    · rfl
  have hplan : bcPlanP false a b d (interMask (padShape d a.shape) (padShape d b.shape))
      (List.zipWith max (padShape d a.shape) (padShape d b.shape)) =
      .ok (sufProds (List.zipWith max (padShape d a.shape) (padShape d b.shape)), ist,
        List.replicate (a.data.length * d % 2 ^ 64) 0, List.replicate (b.data.length * d % 2 ^ 64) 0) := by
    unfold bcPlanP
    rw [strides?_eq hNO, i1]
    simp only [expectP, ok_bind]
    rw [mul, ok_bind, zerosP_ok hza, ok_bind, mul, ok_bind, zerosP_ok hzb, ok_bind]
    rfl
  rw [hplan]
  have hlt := Nat.mod_lt (a.data.length * d) (y := 2 ^ 64) (by decide)
  refine thenR_err (normPtr_short (Nat.le_of_eq ha.length.symm) hU hda ?_ ?_) o
  · rw [List.length_replicate]; unfold usizeMax at hN; omega
  · rw [List.length_replicate]; unfold usizeMax; omega

/-! ### From Python -/

/-- C69: `coond_hadamard_broadcast_from_parts` on arbitrary arguments, checked or not: never
undefined behaviour as long as the sizes of the two buffers fit `usize`, in a debug build always. -/
theorem py_broadcast_safe {dbg check : Bool} {F : Nat} {order : List Nat → List Nat → List Nat} {nthreads : Nat}
    {sort : List (Nat × V) → List (Nat × V)} {aShape aIndices bShape bIndices : List Int} {aData bData : List V}
    (h : dbg = true ∨ aData.length * max aShape.length bShape.length ≤ usizeMax ∧
      bData.length * max aShape.length bShape.length ≤ usizeMax) {out : Except Fault (Except String (CooNd V))}
    (hr : PyBroadcastPtr dbg F order nthreads sort aShape aIndices aData bShape bIndices bData check out) :
    out ≠ .error .ub := by
  unfold PyBroadcastPtr at hr
  cases h1 : convertDims "shape must be non-negative" aShape with
  | error m => rw [h1] at hr; rw [show out = _ from hr]; simp
  | ok sa =>
  rw [h1] at hr
  simp only [] at hr
  cases h2 : CooNd.fromParts sa aIndices aData check with
  | error m => rw [h2] at hr; rw [show out = _ from hr]; simp
  | ok a =>
  rw [h2] at hr
  simp only [] at hr
  cases h3 : convertDims "shape must be non-negative" bShape with
  | error m => rw [h3] at hr; rw [show out = _ from hr]; simp
  | ok sb =>
  rw [h3] at hr
  simp only [] at hr
  cases h4 : CooNd.fromParts sb bIndices bData check with
  | error m => rw [h4] at hr; rw [show out = _ from hr]; simp
  | ok b =>
  rw [h4] at hr
  simp only [] at hr
  obtain ⟨o, ho, rfl⟩ := hr
  obtain ⟨rfl, -, -⟩ := fromParts_lengths h2
  obtain ⟨rfl, -, -⟩ := fromParts_lengths h4
  have e1 := (convertDims_ok h1).1
  have e2 := (convertDims_ok h3).1
  have := broadcast_no_ub (by subst e1 e2; simpa using h) ho
  intro hx
  cases o with
  | error x => cases hx; exact this rfl
  | ok y => cases hx

/-- The exception, with valid arguments and `check` on: `n` entries of a one-element vector times one
entry of an array with `m` axes of extent 1. -/
theorem py_broadcast_wraps {F : Nat} {order : List Nat → List Nat → List Nat} {nthreads : Nat}
    {sort : List (Nat × V) → List (Nat × V)} (v w : V) {n m : Nat} (hn : n ≤ usizeMax) (hm : 0 < m) (hmu : 8 * (m : Int) ≤ i64Max)
    (hnm : usizeMax < n * m) (hz : 8 * ((n * m % 2 ^ 64 : Nat) : Int) ≤ i64Max)
    (out : Except Fault (Except String (CooNd V))) :
    PyBroadcastPtr false F order nthreads sort [1] (List.replicate n 0) (List.replicate n v)
      (List.replicate m 1) (List.replicate m 0) [w] true out ↔ out = .error .ub := by
  have hwa : (⟨[1], List.replicate n 0, List.replicate n v⟩ : CooNd V).WF := by
    refine ⟨by simp, by simp, ?_⟩
    intro k hk d hd
    simp only [List.length_replicate] at hk
    simp only [List.length_cons, List.length_nil] at hd
    have hd0 : d = 0 := by omega
    subst hd0
    unfold CooNd.coord
    simp [hk]
  have hwb : (⟨List.replicate m 1, List.replicate m 0, [w]⟩ : CooNd V).WF := by
    refine ⟨by simp; omega, by simp, ?_⟩
    intro k hk d hd
    simp only [List.length_cons, List.length_nil] at hk
    simp only [List.length_replicate] at hd
    have hk0 : k = 0 := by omega
    subst hk0
    unfold CooNd.coord
    simp [hd]
  have hmu' : m ≤ usizeMax := by unfold i64Max at hmu; unfold usizeMax; omega
  have hfa : CooNd.fromParts [1] (List.replicate n 0) (List.replicate n v) true =
      .ok ⟨[1], List.replicate n 0, List.replicate n v⟩ :=
    (coond_fromParts_iff _ _ _ _).2 ⟨by simpa using hn, rfl, hwa⟩
  have hfb : CooNd.fromParts (List.replicate m 1) (List.replicate m 0) [w] true =
      .ok ⟨List.replicate m 1, List.replicate m 0, [w]⟩ :=
    (coond_fromParts_iff _ _ _ _).2 ⟨by simpa using hmu', rfl, hwb⟩
  have e1 : convertDims "shape must be non-negative" [1] = .ok [1] := rfl
  have e2 : convertDims "shape must be non-negative" (List.replicate m 1) = .ok (List.replicate m 1) := by
    rw [convertDims_of (by intro i hi; rw [(List.mem_replicate.1 hi).2]; decide)]
    simp
  have hpad : padShape m [1] = List.replicate m 1 := by
    unfold padShape
    rw [show ([1] : List Nat) = List.replicate 1 1 from rfl, List.length_replicate, List.replicate_append_replicate]
    congr 1; omega
  have hb : IsBroadcast [1] (List.replicate m 1) (List.replicate m 1) := by
    rw [isBroadcast_iff]
    rw [show max ([1] : List Nat).length (List.replicate m 1).length = m by simp; omega, hpad,
      show padShape m (List.replicate m 1) = List.replicate m 1 by simp [padShape]]
    refine ⟨?_, by simp⟩
    unfold BCompat
    rw [List.forall₂_same]
    intro x _
    exact .inl rfl
  have key := fun o => broadcast_size_wraps (F := F) (order := order) (nthreads := nthreads) (sort := sort) hwa hwb hb
    (by simp; decide) (by simp) (by simpa using hn) (by simpa using hnm) (by simpa using hz)
    (by
      simp only [List.length_cons, List.length_nil, List.length_replicate, Nat.zero_add, Nat.one_mul]
      rw [Nat.mod_eq_of_lt (by unfold usizeMax at hmu'; omega)]
      exact hmu) o
  unfold PyBroadcastPtr
  rw [e1, e2]
  simp only []
  rw [hfa, hfb]
  simp only []
  constructor
  · rintro ⟨o, ho, rfl⟩
    rw [(key o).1 ho]; rfl
  · rintro rfl
    exact ⟨_, (key _).2 rfl, rfl⟩

example (F : Nat) (order nthreads sort) (out : Except Fault (Except String (CooNd Int))) :
    PyBroadcastPtr false F order nthreads sort [1] (List.replicate (2 ^ 32) 0) (List.replicate (2 ^ 32) 3)
      (List.replicate (2 ^ 32) 1) (List.replicate (2 ^ 32) 0) [5] true out ↔ out = .error .ub :=
  py_broadcast_wraps 3 5 (by decide) (by decide) (by decide) (by decide) (by decide) out

/-- The two sides of the condition of `broadcast_no_ub`. -/
example (F : Nat) (order nthreads sort) (o : Except Fault (CooNd Int))
    (h : BroadcastPtr false F order nthreads sort exNdStray exP o) : o ≠ .error .ub :=
  broadcast_no_ub (.inr (by decide)) h

end Lacuna
