import Verif.Lemmas.PyBitsNd
/-
The list-level values of Python programs store exactly what the programs say, in any arithmetic.
-/
set_option linter.unusedSectionVars false

namespace Lacuna
variable {V : Type}

/-- No coordinate is stored twice. -/
def SpVal.Simple (v : SpVal V) : Prop := (v.stores.map Prod.fst).Nodup

theorem unravel_rowMajor {s : List Nat} {x : List Int} (h : InBounds s x) : unravel s (rowMajor s x) = x := by
  obtain ⟨h1, h2⟩ := unravel_spec (rowMajor_lt h)
  exact rowMajor_inj h1 h h2

theorem map_keys_nodup {l : List (List Int × V)} (hn : (l.map Prod.fst).Nodup) {g : List Int → List Int}
    (hg : ∀ x ∈ l.map Prod.fst, ∀ y ∈ l.map Prod.fst, g x = g y → x = y) :
    ((l.map fun e => (g e.1, e.2)).map Prod.fst).Nodup := by
  rw [List.map_map]
  have e1 : (Prod.fst ∘ fun e : List Int × V => (g e.1, e.2)) = g ∘ Prod.fst := rfl
  rw [e1, ← List.map_map]
  exact List.Nodup.map_on hg hn

theorem map_vals_keys (l : List (List Int × V)) (g : V → V) :
    (l.map fun e => (e.1, g e.2)).map Prod.fst = l.map Prod.fst := by
  rw [List.map_map]; rfl

theorem select_perm_inj {perm : List Nat} {s : List Nat} (hp : perm.Perm (List.range s.length)) {x y : List Int}
    (hx : InBounds s x) (hy : InBounds s y) (h : select perm x = select perm y) : x = y := by
  have l1 := hx.length_eq
  have l2 := hy.length_eq
  apply List.ext_getElem (by omega)
  intro d hd hd'
  have hm : d ∈ perm := hp.mem_iff.2 (by simp; omega)
  unfold select at h
  have := List.map_inj_left.1 h d hm
  rwa [List.getD_eq_getElem _ _ hd, List.getD_eq_getElem _ _ hd'] at this

theorem coo_ext {a b : Coo V} (ha : a.WF) (hb : b.WF) (hs : a.nrows = b.nrows ∧ a.ncols = b.ncols)
    (h : a.triples = b.triples) : a = b := by
  have fsts : ∀ {c : Coo V}, c.WF → c.triples.map Prod.fst = c.row.zip c.col := fun {c} hc => by
    have := hc.row_length
    have := hc.col_length
    exact List.map_fst_zip (by rw [List.length_zip]; omega)
  have snds : ∀ {c : Coo V}, c.WF → c.triples.map Prod.snd = c.data := fun {c} hc => by
    have := hc.row_length
    have := hc.col_length
    exact List.map_snd_zip (by rw [List.length_zip]; omega)
  have rows : ∀ {c : Coo V}, c.WF → (c.triples.map Prod.fst).map Prod.fst = c.row := fun {c} hc => by
    have := hc.row_length
    have := hc.col_length
    rw [fsts hc]; exact List.map_fst_zip (by omega)
  have cols : ∀ {c : Coo V}, c.WF → (c.triples.map Prod.fst).map Prod.snd = c.col := fun {c} hc => by
    have := hc.row_length
    have := hc.col_length
    rw [fsts hc]; exact List.map_snd_zip (by omega)
  have h1 : a.data = b.data := by rw [← snds ha, ← snds hb, h]
  have h2 : a.row = b.row := by rw [← rows ha, ← rows hb, h]
  have h3 : a.col = b.col := by rw [← cols ha, ← cols hb, h]
  cases a; cases b
  simp only [Coo.mk.injEq]
  exact ⟨hs.1, hs.2, h2, h3, h1⟩

theorem nd_ext {a b : CooNd V} (ha : a.WF) (hb : b.WF) (hs : a.shape = b.shape) (h : a.entries = b.entries) : a = b := by
  have h1 := congrArg (List.map Prod.snd) h
  have h2 := congrArg (List.map Prod.fst) h
  unfold CooNd.entries at h1 h2
  rw [List.map_snd_zip (by simp), List.map_snd_zip (by simp)] at h1
  rw [List.map_fst_zip (by simp), List.map_fst_zip (by simp), h1] at h2
  have hla := ha.length
  have hlb := hb.length
  have hpos : 0 < b.shape.length := List.length_pos_of_ne_nil hb.rank
  have hix : a.indices = b.indices := by
    rw [h1, hs] at hla
    apply List.ext_getElem (by omega)
    intro p hp hp'
    have hk : p / b.shape.length < b.data.length := by
      rw [Nat.div_lt_iff_lt_mul hpos]; omega
    have hd : p % b.shape.length < b.shape.length := Nat.mod_lt _ hpos
    have h3 := List.map_inj_left.1 h2 (p / b.shape.length) (List.mem_range.2 hk)
    unfold CooNd.coords at h3
    rw [hs] at h3
    have h4 := List.map_inj_left.1 h3 (p % b.shape.length) (List.mem_range.2 hd)
    unfold CooNd.coord at h4
    have e : p / b.shape.length * b.shape.length + p % b.shape.length = p := by
      rw [Nat.mul_comm]; exact Nat.div_add_mod _ _
    rw [hs, e, List.getD_eq_getElem _ _ hp, List.getD_eq_getElem _ _ hp'] at h4
    exact h4
  cases a; cases b
  simp only [CooNd.mk.injEq]
  exact ⟨hs, hix, h1⟩

section
variable [Zero V] [One V] [Add V] [Sub V] [Mul V] [Div V] [Neg V] [BEq V] [NatCast V] [HasFinite V]
  [HasFloor V] [HasPowf V] [HasAbs V] [HasLt V] [HasNan V]

theorem Prog.shape_ok {e : Prog V} {τ : Ty} (h : e.check = .ok τ) : e.shape = τ.shape := by
  unfold Prog.shape; rw [h]
theorem Prog.order_ok {e : Prog V} {τ : Ty} (h : e.check = .ok τ) : e.order = τ.order := by
  unfold Prog.order; rw [h]
theorem Prog.compressed_ok {e : Prog V} {τ : Ty} (h : e.check = .ok τ) : e.compressed = τ.compressed := by
  unfold Prog.compressed; rw [h]

theorem NdOp.apply_stores {env : PyEnv V} (he : env.Ok) (op : NdOp) {a : CooNd V} (h : (SpVal.nd a).Good) {xs : List Nat}
    {w : SpVal V} (hw : op.apply env a xs = .ok w) {τ : Ty} (ht : op.ty a.shape xs = .ok τ) (hfit : τ.SizeOk a.data.length)
    (hu : ∀ f, op = .unfold f → a.NoDup) :
    w.stores = op.bits a.shape xs τ.order a.entries ∧ ((op = .reshape ∨ op = .permute → a.NoDup) → w.Simple) := by
  obtain ⟨ha, hi, hpos, h63, hus, h24, hidx, hU⟩ := nd_fits h
  cases op with
  | reshape =>
    simp only [NdOp.ty] at ht
    split_ifs at ht with h1 h2
    cases ht
    rw [not_not] at h1
    obtain ⟨f1, f2, -⟩ := hfit
    have hd : ∀ s ∈ xs, (s : Int) ≤ 2 ^ 63 := fun s hs => by
      have := le_prod_of_mem f1 hs
      have f2 : (xs.prod : Int) ≤ i64Max := f2
      unfold i64Max at f2; omega
    obtain ⟨r, hr⟩ := Option.isSome_iff_exists.1 (reshape_runs ha hi h1 hpos hus)
    simp only [NdOp.apply, hr, h2, if_false] at hw
    cases hw
    obtain ⟨r1, r2, -, -, r5⟩ := reshape_correct ha hi h2 hd hr
    have key : r.entries = a.entries.map fun e => (unravel xs (rowMajor a.shape e.1), e.2) := by
      have h6 := congrArg (List.map fun e : Nat × V => (unravel xs e.1, e.2)) r5
      rw [List.map_map, List.map_map] at h6
      refine Eq.trans ?_ h6
      conv_lhs => rw [← List.map_id r.entries]
      apply List.map_congr_left
      intro e hm
      have := r2.entries_inBounds e hm
      rw [r1] at this
      show e = (unravel xs (rowMajor xs e.1), e.2)
      rw [unravel_rowMajor this]
    refine ⟨key, fun hdist => ?_⟩
    show (r.entries.map Prod.fst).Nodup
    rw [key]
    refine map_keys_nodup (g := fun x => unravel xs (rowMajor a.shape x)) (hdist (.inl rfl)) ?_
    intro x hx y hy hxy
    obtain ⟨e, he, rfl⟩ := List.mem_map.1 hx
    obtain ⟨e', he', rfl⟩ := List.mem_map.1 hy
    have b1 := ha.entries_inBounds e he
    have b2 := ha.entries_inBounds e' he'
    have k1 := rowMajor_lt b1
    have k2 := rowMajor_lt b2
    have := congrArg (rowMajor xs) hxy
    rw [(unravel_spec (by omega)).2, (unravel_spec (by omega)).2] at this
    exact rowMajor_inj b1 b2 this
  | permute =>
    simp only [NdOp.ty] at ht
    split_ifs at ht with h1
    cases ht
    obtain ⟨r, r1, r2, r3, r4, r5, r6⟩ := permute_correct ha hi h1
    simp only [NdOp.apply, r1, ndRes] at hw
    cases hw
    refine ⟨r5, fun hdist => ?_⟩
    show (r.entries.map Prod.fst).Nodup
    rw [r5]
    refine map_keys_nodup (hdist (.inr rfl)) ?_
    intro x hx y hy hxy
    obtain ⟨e, he, rfl⟩ := List.mem_map.1 hx
    obtain ⟨e', he', rfl⟩ := List.mem_map.1 hy
    exact select_perm_inj h1 (ha.entries_inBounds e he) (ha.entries_inBounds e' he') hxy
  | reduceSum =>
    simp only [NdOp.ty] at ht
    split_ifs at ht with hc
    cases ht
    obtain ⟨⟨hlt, hnd⟩, hne, hrest⟩ := id hc
    obtain ⟨g1, g2⟩ := extents_prod_le (restAxes_ok a.shape.length xs) hpos
    have hno := noOverflow_of_pos g1 (g2.trans hus)
    obtain ⟨r, r1, r2, r3, r4, r5, r6⟩ := reduce_sum_spec he.nd ha hi hne hlt hnd hrest hno
    simp only [NdOp.apply, r1, ndRes] at hw
    cases hw
    refine ⟨?_, fun _ => nodup_of_lt r5⟩
    show r.entries = tabulate (indicesOf (extents a.shape (restAxes a.shape.length xs))) _
    rw [nd_tabulate r3 r5 fun y _ v => r6 y v, r2]
    rfl
  | reduceMean =>
    simp only [NdOp.ty] at ht
    split_ifs at ht with hc
    cases ht
    obtain ⟨⟨hlt, hnd⟩, hne, hrest⟩ := id hc
    obtain ⟨g1, g2⟩ := extents_prod_le (restAxes_ok a.shape.length xs) hpos
    have hno := noOverflow_of_pos g1 (g2.trans hus)
    have hax : AxesOk a.shape.length ((List.range a.shape.length).filter fun d => xs.contains d) :=
      ⟨fun _ hp => List.mem_range.1 (List.mem_filter.1 hp).1, List.Nodup.filter _ List.nodup_range⟩
    obtain ⟨d1, d2⟩ := extents_prod_le hax hpos
    have hcount : (((List.range a.shape.length).filter fun d => xs.contains d).map fun d => a.shape.getD d 0).prod =
        (extents a.shape xs).prod := by
      apply List.Perm.prod_eq
      apply List.Perm.map
      rw [List.perm_ext_iff_of_nodup hax.2 hnd]
      intro d
      simp only [List.mem_filter, List.mem_range, List.contains_eq_mem, decide_eq_true_eq]
      exact ⟨fun h => h.2, fun h => ⟨hlt d h, h⟩⟩
    obtain ⟨r, r1, r2, r3, r4, r5, r6⟩ := reduce_sum_spec he.nd ha hi hne hlt hnd hrest hno
    have hr : r.entries = tabulate (indicesOf (extents a.shape (restAxes a.shape.length xs)))
        (total (a.entries.map fun e => (select (restAxes a.shape.length xs) e.1, e.2))) := by
      rw [nd_tabulate r3 r5 fun y _ v => r6 y v, r2]
      rfl
    have hpc := productChecked_pos (l := ((List.range a.shape.length).filter fun d => xs.contains d).map
      fun d => a.shape.getD d 0) d1 (d2.trans hus)
    rw [hcount] at hpc
    simp only [NdOp.apply, reduceMeanNd, r1, hpc, Option.bind_some] at hw
    simp only [NdOp.bits]
    show _ = (tabulate (indicesOf (extents a.shape (restAxes a.shape.length xs))) _).map _ ∧ _
    rw [← hr]
    by_cases hone : (extents a.shape xs).prod = 1
    · rw [if_pos hone] at hw
      cases hw
      simp only [if_pos hone]
      exact ⟨by simp [SpVal.stores], fun _ => nodup_of_lt r5⟩
    · rw [if_neg hone, mulScalarCooNd, mulScalarData_fn] at hw
      cases hw
      simp only [if_neg hone]
      have := stores_mapData (.mul (1 / ((extents a.shape xs).prod : V))) (.nd r)
      refine ⟨this, fun _ => ?_⟩
      show ((SpVal.mapData (.mul (1 / ((extents a.shape xs).prod : V))) (.nd r)).stores.map Prod.fst).Nodup
      rw [this, map_vals_keys]
      exact nodup_of_lt r5
  | unfold f =>
    simp only [NdOp.ty] at ht
    split_ifs at ht with hc
    cases ht
    obtain ⟨p1, p2⟩ := extents_prod_le hc hpos
    obtain ⟨g1, g2⟩ := extents_prod_le (restAxes_ok a.shape.length xs) hpos
    obtain ⟨r, r1, r2, r3⟩ := unfold_coo_runs ha hi hc.1 hc.2 p1 (p2.trans hus) g1 (g2.trans hus)
    have hrow : (r.nrows : Int) ≤ i64Max := by rw [r2]; omega
    have hcol : (r.ncols : Int) ≤ i64Max := by rw [r3]; omega
    obtain ⟨-, -, u3, u4, u5, u6⟩ := unfold_coo_spec ha hi r1 (by unfold i64Max at hrow; omega)
      (by unfold i64Max at hcol; omega)
    have hlen : (r.data.length : Int) ≤ i64Max := by rw [u3]; omega
    have hnd : a.NoDup := hu f rfl
    have hrn : (r.triples.map Prod.fst).Nodup := by
      rw [u6, List.map_map]
      have e1 : (Prod.fst ∘ fun e : List Int × V =>
          (((unfoldRow a.shape xs e.1 : Int), (unfoldCol a.shape xs e.1 : Int)), e.2)) =
          (fun x => ((unfoldRow a.shape xs x : Int), (unfoldCol a.shape xs x : Int))) ∘ Prod.fst := rfl
      rw [e1, ← List.map_map]
      refine List.Nodup.map_on ?_ hnd
      intro x hx y hy hxy
      obtain ⟨e, he, rfl⟩ := List.mem_map.1 hx
      obtain ⟨e', he', rfl⟩ := List.mem_map.1 hy
      simp only [Prod.mk.injEq, Nat.cast_inj] at hxy
      exact unfold_inj hc.1 (ha.entries_inBounds e he) (ha.entries_inBounds e' he') hxy.1 hxy.2
    have htot : ∀ i j : Nat, total r.triples ((i : Int), (j : Int)) =
        total (a.entries.map fun e => (unfoldIndex a.shape xs e.1, e.2)) [(i : Int), (j : Int)] := fun i j => by
      rw [← total_map_key r.triples (fun p : Int × Int => [p.1, p.2]) ((i : Int), (j : Int)) (fun e _ h => by
        simp only [List.cons.injEq, and_true] at h; exact Prod.ext h.1 h.2), u6, List.map_map]
      rfl
    simp only [NdOp.apply, r1] at hw
    cases hw
    cases f with
    | csr =>
      obtain ⟨c1, c2, c3, c4⟩ := coo_to_csr_exact he.triple u4 u5 hrow hlen
      have hW : (cooToCsr env.tripleSort r).comp.WF := c3
      refine ⟨?_, fun _ => stores_nodup_mat (f := .csr) hW⟩
      have := stores_tabulate (f := .csr) hW (g := total (a.entries.map fun e => (unfoldIndex a.shape xs e.1, e.2)))
        fun i j _ _ => by
          rw [show (cooToCsr env.tripleSort r).comp.stored i j = total (env.tripleSort r.triples) ((i : Int), (j : Int))
            from c4 i j, total_perm_nodup (he.triple _).1 hrn, htot]
          rfl
      refine Eq.trans this ?_
      show tabulate (indicesOf [(cooToCsr env.tripleSort r).nrows, (cooToCsr env.tripleSort r).ncols]) _ = _
      rw [c1, c2, r2, r3]
      rfl
    | csc =>
      obtain ⟨c1, c2, c3, c4⟩ := coo_to_csc_exact he.triple u4 u5 hcol hlen
      have hW : (cooToCsc env.tripleSort r).comp.WF := c3
      refine ⟨?_, fun _ => stores_nodup_mat (f := .csc) hW⟩
      have hrn' : ((r.triples.map fun t => ((t.1.2, t.1.1), t.2)).map Prod.fst).Nodup := by
        rw [List.map_map]
        have e1 : (Prod.fst ∘ fun t : (Int × Int) × V => ((t.1.2, t.1.1), t.2)) =
          (fun p : Int × Int => (p.2, p.1)) ∘ Prod.fst := rfl
        rw [e1, ← List.map_map]
        exact List.Nodup.map (fun p q h => by simp only [Prod.mk.injEq] at h; exact Prod.ext h.2 h.1) hrn
      have := stores_tabulate (f := .csc) hW (g := total (a.entries.map fun e => (unfoldIndex a.shape xs e.1, e.2)))
        fun j i _ _ => by
          rw [show (cooToCsc env.tripleSort r).comp.stored j i =
            total (env.tripleSort (r.triples.map fun t => ((t.1.2, t.1.1), t.2))) ((j : Int), (i : Int))
            from c4 i j, total_perm_nodup (he.triple _).1 hrn',
            show ((j : Int), (i : Int)) = (fun p : Int × Int => (p.2, p.1)) ((i : Int), (j : Int)) from rfl,
            total_map_key r.triples (fun p : Int × Int => (p.2, p.1)) ((i : Int), (j : Int)) (fun e _ h => by
              simp only [Prod.mk.injEq] at h; exact Prod.ext h.2 h.1), htot]
          rfl
      refine Eq.trans this ?_
      show tabulate ((indicesOf [(cooToCsc env.tripleSort r).ncols, (cooToCsc env.tripleSort r).nrows]).map List.reverse) _ = _
      rw [c1, c2, r2, r3]
      rfl

theorem stores_bin {env : PyEnv V} (he : env.Ok) (op : BinOp) {v w r : SpVal V} (hv : v.Good) (hw : w.Good)
    (hr : v.bin env op w = .ok r) (hsz : ∀ s, Ty.bin op v.ty w.ty = .ok (.nd s) → s.prod ≤ usizeMax) :
    r.Simple ∧ r.stores = tabulate r.ty.order fun x =>
      if v.ty.compressed then op.bits (total v.stores (bcastIndex v.ty.shape x)) (total w.stores (bcastIndex w.ty.shape x))
      else sumAll ((valuesAt v.stores (bcastIndex v.ty.shape x)).flatMap fun p =>
        (valuesAt w.stores (bcastIndex w.ty.shape x)).map fun q => p * q) := by
  cases v with
  | coo a => cases w <;> cases hr
  | mat f a =>
    cases w with
    | coo b => cases hr
    | nd b => cases hr
    | mat g b =>
      simp only [SpVal.bin] at hr
      split_ifs at hr with hfg hnm
      subst hfg
      cases hr
      have ha : a.WF := hv.1
      have hb : b.WF := hw.1
      obtain ⟨c1, c2, c3⟩ := op.comp_wf ha hb hnm.1 hnm.2
      have hs : (SpVal.mat f (binComp op.count op.fill a b)).ty.shape = (SpVal.mat f a).ty.shape := by
        cases f
        · show [_, _] = [_, _]; unfold Fmt.rows Fmt.cols; rw [c2, c3]
        · show [_, _] = [_, _]; unfold Fmt.rows Fmt.cols; rw [c2, c3]
      have hs' : (SpVal.mat f b).ty.shape = (SpVal.mat f a).ty.shape := by
        cases f
        · show [_, _] = [_, _]; unfold Fmt.rows Fmt.cols; rw [hnm.1, hnm.2]
        · show [_, _] = [_, _]; unfold Fmt.rows Fmt.cols; rw [hnm.1, hnm.2]
      refine ⟨stores_nodup_mat c1, ?_⟩
      rw [stores_bin_mat op ha hb hnm.1 hnm.2]
      refine tabulate_congr fun x hx => ?_
      have hx : InBounds (SpVal.mat f (binComp op.count op.fill a b)).ty.shape x := by
        cases f with
        | csr => exact mem_indicesOf.1 hx
        | csc =>
          obtain ⟨y, hy, rfl⟩ := List.mem_map.1 hx
          obtain ⟨i, j, rfl, hi, hj⟩ := inBounds_pair (mem_indicesOf.1 hy)
          exact inBounds_cons.2 ⟨⟨by omega, by exact_mod_cast hj⟩, inBounds_cons.2 ⟨⟨by omega, by exact_mod_cast hi⟩, .nil⟩⟩
      rw [hs] at hx
      rw [if_pos (show (SpVal.mat f a).ty.compressed = true from rfl), hs', bcastIndex_self hx]
  | nd a =>
    cases w with
    | coo b => cases hr
    | mat g b => cases hr
    | nd b =>
      simp only [SpVal.bin] at hr
      split_ifs at hr with hop
      subst hop
      obtain ⟨ha, hai⟩ : a.WF ∧ a.I64 := hv.1
      obtain ⟨hb, hbi⟩ : b.WF ∧ b.I64 := hw.1
      have hp1 : ∀ d ∈ a.shape, 0 < d := pos_of_prod_pos hv.2.1
      have hp2 : ∀ d ∈ b.shape, 0 < d := pos_of_prod_pos hw.2.1
      cases hbc : bcastTo a.shape b.shape with
      | none =>
        rw [broadcast_mul_incompatible _ _ _ _ _ (fun ⟨o, h⟩ => bcastTo_none hbc o h)] at hr
        cases hr
      | some u =>
        have hbr := bcastTo_some hp1 hp2 hbc
        cases hm : broadcastMulNd env.order env.threads env.ndSort a b with
        | none => rw [hm] at hr; cases hr
        | some q =>
          rw [hm] at hr
          cases hr
          have hu : u.prod ≤ usizeMax := hsz u (by simp only [Ty.bin, SpVal.ty, hbc, if_true])
          obtain ⟨q', q1, q2, q3, q4, q5⟩ := broadcast_mul_bits he.keys env.threads he.nd ha hb hai hbi hbr hu
          rw [hm] at q1
          cases q1
          exact ⟨nodup_of_lt q4, nd_tabulate q3 q4 fun x hx v => by rw [q2] at hx; exact q5 x hx v⟩

theorem pruneBits_sublist (c : Bool) (eps : V) (l : List (List Int × V)) : (pruneBits c eps l).Sublist l := by
  unfold pruneBits
  split_ifs
  · exact List.Sublist.refl _
  · exact List.Sublist.refl _
  · exact List.filter_sublist

theorem stores_prune (eps : V) {v : SpVal V} (h : v.Valid) (hn : v.ty.prune = .ok v.ty) :
    (v.prune eps).stores = pruneBits v.ty.compressed eps v.stores := by
  cases v with
  | mat f a => exact stores_prune_mat eps (show a.WF from h)
  | coo a => exact stores_prune_coo eps a
  | nd a => cases hn

theorem stores_T {v : SpVal V} (h : v.Good) {τ : Ty} (ht : v.ty.T = .ok τ) :
    v.T.stores = if v.ty.compressed then tabulate τ.order (total (v.stores.map fun e => (e.1.reverse, e.2)))
      else v.stores.map fun e => (e.1.reverse, e.2) := by
  obtain ⟨-, t2, -⟩ := h.T ht
  cases v with
  | mat f a =>
    rw [← t2]
    exact stores_T_mat h
  | coo a => exact stores_T_coo a
  | nd a => cases ht

theorem simple_T {v : SpVal V} (h : v.Good) {τ : Ty} (ht : v.ty.T = .ok τ) (hd : v.Simple) : v.T.Simple := by
  cases v with
  | mat f a => exact stores_nodup_mat (h.T ht).1.1
  | coo a =>
    show ((SpVal.coo a).T.stores.map Prod.fst).Nodup
    rw [stores_T_coo]
    exact map_keys_nodup (g := List.reverse) hd fun x _ y _ h => List.reverse_injective h
  | nd a => cases ht

/-- The list-level value of a program stores what the program says. -/
theorem Prog.value_stores {env : PyEnv V} (he : env.Ok) {e : Prog V} (hl : e.LitsOk) (hs : e.Small) (hd : e.Determined)
    {w : SpVal V} (hw : e.value env = .ok w) : w.stores = e.stores ∧ (e.Distinct → w.Simple) := by
  induction e generalizing w with
  | mat f r k ip ix d =>
    have hi := hl.1
    have hg := (Prog.step (e := .mat f r k ip ix d) he hl hs).good hs hw
    simp only [Prog.value] at hw
    cases hn : nativeNew f r k ip ix d true with
    | error x => rw [hn] at hw; cases hw
    | ok c =>
      rw [hn] at hw
      cases hw
      refine ⟨?_, fun _ => stores_nodup_mat (show c.WF from hg.1.1)⟩
      obtain ⟨-, -, -, h3, h4, h5, h6, h7⟩ := nativeNew_true_ok hi hn
      subst h3 h4 h5 h6 h7
      cases f <;> rfl
  | coo r k row col d =>
    cases hw
    refine ⟨rfl, fun h => ?_⟩
    have h : ((Coo.mk r.toNat k.toNat row col d).triples.map Prod.fst).Nodup := h
    show (((Coo.mk r.toNat k.toNat row col d).triples.map fun t => ([t.1.1, t.1.2], t.2)).map Prod.fst).Nodup
    rw [List.map_map]
    have e1 : (Prod.fst ∘ fun t : (Int × Int) × V => ([t.1.1, t.1.2], t.2)) = (fun p : Int × Int => [p.1, p.2]) ∘ Prod.fst := rfl
    rw [e1, ← List.map_map]
    exact List.Nodup.map (fun p q h => by simp only [List.cons.injEq, and_true] at h; exact Prod.ext h.1 h.2) h
  | nd s ix d => cases hw; exact ⟨rfl, fun h => h⟩
  | un op a ih =>
    obtain ⟨v, hv, rfl⟩ : ∃ v, a.value env = .ok v ∧ v.un op = w := by
      simp only [Prog.value] at hw
      cases hv : a.value env with
      | error x => rw [hv] at hw; cases hw
      | ok v => rw [hv] at hw; cases hw; exact ⟨v, rfl, rfl⟩
    obtain ⟨i1, i2⟩ := ih hl hs.1 hd hv
    refine ⟨by rw [stores_un, i1]; rfl, fun h => ?_⟩
    unfold SpVal.Simple
    rw [stores_un, map_vals_keys]
    exact i2 h
  | bin op a b iha ihb =>
    have hstep := (Prog.step he hl hs).good hs hw
    obtain ⟨va, hva, hw⟩ := bind_ok (show (a.value env).bind _ = .ok w from hw)
    obtain ⟨vb, hvb, hw⟩ := bind_ok hw
    obtain ⟨i1, i2⟩ := iha hl.1 hs.1 hd.1 hva
    obtain ⟨j1, j2⟩ := ihb hl.2 hs.2.1 hd.2 hvb
    obtain ⟨g1, g2, -⟩ := (Prog.step he hl.1 hs.1).good hs.1 hva
    obtain ⟨k1, k2, -⟩ := (Prog.step he hl.2 hs.2.1).good hs.2.1 hvb
    have hfit := hs.2.2
    unfold Prog.Fits at hfit
    obtain ⟨m1, m2⟩ := stores_bin he op g1 k1 hw (fun u hu => by
      have hc : (Prog.bin op a b).check = .ok (.nd u) := by
        show (a.check.bind fun x => b.check.bind fun y => Ty.bin op x y) = _
        rw [g2, k2]; exact hu
      rw [hc] at hfit
      have h63 : (u.prod : Int) ≤ i64Max := hfit.2.1
      unfold i64Max at h63; unfold usizeMax; omega)
    refine ⟨?_, fun _ => m1⟩
    rw [m2, i1, j1, ← Prog.compressed_ok g2, ← Prog.shape_ok g2, ← Prog.shape_ok k2, ← Prog.order_ok hstep.2.1]
    rfl
  | scalar op a alpha ih =>
    obtain ⟨v, hv, hw⟩ := bind_ok (show (a.value env).bind _ = .ok w from hw)
    obtain ⟨i1, i2⟩ := ih hl hs.1 hd hv
    have hst := stores_scalar op alpha hw
    refine ⟨by rw [hst, i1]; rfl, fun h => ?_⟩
    unfold SpVal.Simple
    rw [hst, map_vals_keys]
    exact i2 h
  | left op alpha a ih =>
    obtain ⟨v, hv, hw⟩ := bind_ok (show (a.value env).bind _ = .ok w from hw)
    obtain ⟨i1, i2⟩ := ih hl hs.1 hd hv
    have hst := stores_left op alpha hw
    refine ⟨by rw [hst, i1]; rfl, fun h => ?_⟩
    unfold SpVal.Simple
    rw [hst, map_vals_keys]
    exact i2 h
  | T a ih =>
    have hstep := (Prog.step he hl hs).good hs hw
    obtain ⟨v, hv, hw⟩ := bind_ok (show (a.value env).bind _ = .ok w from hw)
    obtain ⟨i1, i2⟩ := ih hl hs.1 hd hv
    obtain ⟨g1, g2, -⟩ := (Prog.step (e := a) he hl hs.1).good hs.1 hv
    have hwT : w = v.T := by cases v <;> first | (cases hw; rfl) | cases hw
    subst hwT
    obtain ⟨τ, hτ⟩ : ∃ τ, v.ty.T = .ok τ := by cases v <;> first | exact ⟨_, rfl⟩ | cases hw
    obtain ⟨-, t2, -⟩ := g1.T hτ
    refine ⟨?_, fun h => simple_T g1 hτ (i2 h)⟩
    rw [stores_T g1 hτ, i1, ← t2, ← Prog.compressed_ok g2, ← Prog.order_ok hstep.2.1]
    rfl
  | prune eps a ih =>
    obtain ⟨v, hv, hw⟩ := bind_ok (show (a.value env).bind _ = .ok w from hw)
    obtain ⟨i1, i2⟩ := ih hl hs.1 hd hv
    obtain ⟨g1, g2, -⟩ := (Prog.step (e := a) he hl hs.1).good hs.1 hv
    have hwp : w = v.prune eps := by cases v <;> first | (cases hw; rfl) | cases hw
    subst hwp
    have hτ : v.ty.prune = .ok v.ty := by cases v <;> first | rfl | cases hw
    have hst := stores_prune eps g1.1 hτ
    refine ⟨by rw [hst, i1, ← Prog.compressed_ok g2]; rfl, fun h => ?_⟩
    unfold SpVal.Simple
    rw [hst]
    exact (i2 h).sublist ((pruneBits_sublist _ _ _).map _)
  | elimZeros a ih =>
    obtain ⟨v, hv, hw⟩ := bind_ok (show (a.value env).bind _ = .ok w from hw)
    obtain ⟨i1, i2⟩ := ih hl hs.1 hd hv
    obtain ⟨g1, g2, -⟩ := (Prog.step (e := a) he hl hs.1).good hs.1 hv
    have hwp : w = v.prune 0 := by cases v <;> first | (cases hw; rfl) | cases hw
    subst hwp
    have hτ : v.ty.prune = .ok v.ty := by cases v <;> first | rfl | cases hw
    have hst := stores_prune 0 g1.1 hτ
    refine ⟨by rw [hst, i1, ← Prog.compressed_ok g2]; rfl, fun h => ?_⟩
    unfold SpVal.Simple
    rw [hst]
    exact (i2 h).sublist ((pruneBits_sublist _ _ _).map _)
  | ndop op arg a ih =>
    have hstep := (Prog.step he hl hs).good hs hw
    obtain ⟨v, hv, hw⟩ := bind_ok (show (a.value env).bind _ = .ok w from hw)
    obtain ⟨i1, i2⟩ := ih hl hs.1 hd.1 hv
    obtain ⟨g1, g2, g3⟩ := (Prog.step (e := a) he hl hs.1).good hs.1 hv
    cases v with
    | mat f c => cases hw
    | coo c => cases hw
    | nd c =>
      obtain ⟨xs, hxs, hw⟩ := bind_ok (show (argDims arg).bind _ = .ok w from hw)
      have hty : op.ty c.shape xs = .ok w.ty := by
        have h2 := hstep.2.1
        have : (Prog.ndop op arg a).check = op.ty c.shape xs := by
          show a.check.bind _ = _
          rw [g2]
          show (argDims arg).bind _ = _
          rw [hxs]; rfl
        rw [← this]; exact h2
      have hfit := Prog.small_fits hs
      unfold Prog.Fits at hfit
      rw [hstep.2.1] at hfit
      obtain ⟨m1, m2⟩ := NdOp.apply_stores he op g1 hw hty (Ty.SizeOk.mono hfit g3) (by
        rintro f rfl; exact i2 hd.2)
      refine ⟨?_, fun h => m2 fun ho => ?_⟩
      · rw [m1]
        show _ = op.bits a.shape (arg.map Int.toNat) (Prog.ndop op arg a).order a.stores
        rw [← argDims_ok hxs, Prog.shape_ok g2, Prog.order_ok hstep.2.1, ← i1]
        rfl
      · rcases ho with rfl | rfl
        · exact i2 h
        · exact i2 h
  | mode f axis a ih =>
    have hstep := (Prog.step he hl hs).good hs hw
    obtain ⟨v, hv, hw⟩ := bind_ok (show (a.value env).bind _ = .ok w from hw)
    obtain ⟨i1, i2⟩ := ih hl hs.1 hd.1 hv
    obtain ⟨g1, g2, g3⟩ := (Prog.step (e := a) he hl hs.1).good hs.1 hv
    cases v with
    | mat f c => cases hw
    | coo c => cases hw
    | nd c =>
      simp only [SpVal.mode] at hw
      split_ifs at hw with h1 h2
      have hty : (NdOp.unfold f).ty c.shape [axis.toNat] = .ok w.ty := by
        have h3 := hstep.2.1
        have e1 : (Prog.mode f axis a).check = (SpVal.nd c).ty.mode f axis := by
          show a.check.bind _ = _
          rw [g2]; rfl
        rw [e1, show (SpVal.nd c).ty = .nd c.shape from rfl] at h3
        simp only [Ty.mode] at h3
        rw [if_neg h1, if_pos h2] at h3
        rw [← h3]
        have : AxesOk c.shape.length [axis.toNat] := ⟨by simpa using h2, by simp⟩
        simp only [NdOp.ty, this, if_true, extents, List.map_cons, List.map_nil, List.prod_cons, List.prod_nil, mul_one]
      have hfit := Prog.small_fits hs
      unfold Prog.Fits at hfit
      rw [hstep.2.1] at hfit
      obtain ⟨m1, m2⟩ := NdOp.apply_stores he (.unfold f) g1 hw hty (Ty.SizeOk.mono hfit g3) (fun _ _ => i2 hd.2)
      refine ⟨?_, fun _ => m2 (by simp)⟩
      rw [m1]
      show _ = (NdOp.unfold f).bits a.shape [axis.toNat] (Prog.mode f axis a).order a.stores
      rw [Prog.shape_ok g2, Prog.order_ok hstep.2.1, ← i1]
      rfl

/-- An object is determined by its type and its stored entries. -/
theorem SpVal.ext_stores {v w : SpVal V} (hv : v.Valid) (hw : w.Valid) (hty : v.ty = w.ty) (h : v.stores = w.stores) :
    v = w := by
  cases v with
  | mat f a =>
    cases w with
    | coo b => cases hty
    | nd b => cases hty
    | mat g b =>
      have ha : a.WF := hv
      have hb : b.WF := hw
      have hfg : f = g ∧ a.n = b.n ∧ a.m = b.m := by
        cases f <;> cases g <;> simp only [SpVal.ty, Ty.mat.injEq, Fmt.rows, Fmt.cols] at hty
        · exact ⟨rfl, hty.2.1, hty.2.2⟩
        · exact absurd hty.1 (by simp)
        · exact absurd hty.1 (by simp)
        · exact ⟨rfl, hty.2.2, hty.2.1⟩
      obtain ⟨rfl, hn, hm⟩ := hfg
      congr 1
      refine ha.ext_stored hb hn hm fun i j => ?_
      rw [← total_stores (f := f) ha, ← total_stores (f := f) hb, h]
  | coo a =>
    cases w with
    | mat g b => cases hty
    | nd b => cases hty
    | coo b =>
      obtain ⟨ha, -⟩ : a.WF ∧ a.I64 := hv
      obtain ⟨hb, -⟩ : b.WF ∧ b.I64 := hw
      have h : a.triples.map (fun t => (([t.1.1, t.1.2] : List Int), t.2)) = b.triples.map fun t => ([t.1.1, t.1.2], t.2) := h
      have ht : a.triples = b.triples := by
        refine List.map_injective_iff.2 ?_ h
        intro p q hpq
        simp only [Prod.mk.injEq, List.cons.injEq, and_true] at hpq
        exact Prod.ext (Prod.ext hpq.1.1 hpq.1.2) hpq.2
      exact congrArg _ (coo_ext ha hb (by simpa [SpVal.ty] using hty) ht)
  | nd a =>
    cases w with
    | mat g b => cases hty
    | coo b => cases hty
    | nd b =>
      exact congrArg _ (nd_ext hv.1 hw.1 (by simpa [SpVal.ty] using hty) h)

end
end Lacuna
