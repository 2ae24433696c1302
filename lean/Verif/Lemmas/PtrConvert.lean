import Verif.Model.PtrConvert
import Verif.Lemmas.Conc
import Verif.Lemmas.PtrDriver
import Verif.Lemmas.PtrLoop
/-
The pointer-level conversions are the list-level ones.
-/
namespace Lacuna
variable {V : Type}

theorem addUsize_eq' {dbg : Bool} {a b : Nat} (h : ((a + b : Nat) : Int) ≤ i64Max) :
    addUsize dbg a b = .ok (a + b) := by
  unfold addUsize
  rw [if_pos (by unfold i64Max at h; unfold usizeMax; omega)]

theorem setIdxP_eq {α : Type} {v : List α} {i : Nat} {x : α} (h : i < v.length) :
    setIdxP v i x = .ok (v.set i x) := if_pos h

theorem bumpCountP_eq {dbg : Bool} {m : Nat} {c : Nat → Nat} {j : Int} (h0 : 0 ≤ j) (h1 : (m + 1 : Int) ≤ i64Max)
    (hj : j < m) (hc : ((c j.toNat + 1 : Nat) : Int) ≤ i64Max) :
    bumpCountP dbg (cntList m c) j = .ok (cntList m fun k => if k = j.toNat then c k + 1 else c k) := by
  have hb := bumpCount_eq (c := c) h0 (by omega) hj
  unfold bumpCount at hb
  simp only [i64ToUsize_of_nonneg h0 (show j ≤ i64Max by omega)] at hb
  have hl : j.toNat + 1 < (cntList m c).length := by simp [cntList]; omega
  rw [if_pos hl] at hb
  have hb := Option.some.inj hb
  have hg : (cntList m c)[j.toNat + 1] = (c j.toNat : Int) := by simp [cntList]
  rw [List.getD_eq_getElem _ _ hl, hg] at hb
  unfold bumpCountP
  rw [i64ToUsizeP_eq h0 (by omega), ok_bind, addUsize_eq' (by omega), ok_bind, index_eq hl, ok_bind, hg,
    addI64_eq (by omega) (by omega) (by omega), ok_bind, setIdxP_eq hl, hb]

theorem foldlM_bumpP {dbg : Bool} {m : Nat} (h1 : (m + 1 : Int) ≤ i64Max) (c : Nat → Nat) (idx : List Int)
    (h : ∀ j ∈ idx, 0 ≤ j ∧ j < m) (hc : ∀ k, ((c k + idx.length : Nat) : Int) ≤ i64Max) :
    idx.foldlM (bumpCountP dbg) (cntList m c) =
      .ok (cntList m fun k => c k + (idx.filter fun j => j == (k : Int)).length) := by
  induction idx generalizing c with
  | nil => simp; rfl
  | cons j idx ih =>
    obtain ⟨h0, h2⟩ := h j (by simp)
    have hl := hc j.toNat
    simp only [List.length_cons] at hc hl
    rw [List.foldlM_cons, bumpCountP_eq h0 h1 h2 (by omega), ok_bind,
      ih _ (fun k hk => h k (by simp [hk])) (by intro k; have := hc k; split <;> omega)]
    congr 2
    funext k
    by_cases hk : k = j.toNat
    · rw [if_pos hk, List.filter_cons_of_pos (by simp; omega)]
      simp; omega
    · rw [if_neg hk, List.filter_cons_of_neg (by simp; omega)]

theorem prefixP_eq {dbg : Bool} (cs : List Nat) : ∀ (pre : List Int) (y : Nat),
    ((y + cs.sum : Nat) : Int) ≤ i64Max →
    prefixP dbg cs.length pre.length (pre ++ (y : Int) :: cs.map fun (c : Nat) => (c : Int)) =
      .ok (pre ++ (y : Int) :: runSum y (cs.map fun (c : Nat) => (c : Int))) := by
  induction cs with
  | nil => intro pre y _; rfl
  | cons c cs ih =>
    intro pre y h
    rw [List.sum_cons] at h
    have hx := ih (pre ++ [(y : Int)]) (y + c) (by omega)
    rw [List.length_append, List.length_singleton, List.append_assoc, List.append_assoc] at hx
    simp only [List.length_cons, prefixP, List.map_cons, runSum]
    rw [index_eq (by simp), ok_bind, index_eq (by simp), ok_bind]
    have e1 : (pre ++ (y : Int) :: (c : Int) :: cs.map fun (c : Nat) => (c : Int))[pre.length]'(by simp) = (y : Int) := by
      simp
    have e2 : (pre ++ (y : Int) :: (c : Int) :: cs.map fun (c : Nat) => (c : Int))[pre.length + 1]'(by simp) = (c : Int) := by
      rw [List.getElem_append_right (by omega)]; simp
    rw [e1, e2, addI64_eq (by omega) (by omega) (by omega), ok_bind, setIdxP_eq (by simp), ok_bind]
    have e3 : (pre ++ (y : Int) :: (c : Int) :: cs.map fun (c : Nat) => (c : Int)).set (pre.length + 1) ((c : Int) + y)
        = pre ++ ([(y : Int)] ++ ((y + c : Nat) : Int) :: cs.map fun (c : Nat) => (c : Int)) := by
      rw [List.set_append_right _ _ (by omega)]
      simp
      omega
    rw [e3, hx]
    simp

/-- The counting pass computes the list-level pointers. -/
theorem countPtrP_eq {dbg : Bool} {m : Nat} {idx : List Int} (hm : 8 * ((m : Int) + 1) ≤ i64Max)
    (h : ∀ j ∈ idx, 0 ≤ j ∧ j < m) (hl : (idx.length : Int) ≤ i64Max)
    (hs : ((((List.range m).map fun (k : Nat) => (idx.filter fun j => j == (k : Int)).length).sum : Nat) : Int) ≤ i64Max) :
    countPtrP dbg m idx = .ok (prefixPtr ((List.range m).map fun (k : Nat) => (idx.filter fun j => j == (k : Int)).length)) := by
  unfold countPtrP
  rw [addUsize_eq' (by omega), ok_bind]
  unfold zerosP
  rw [if_pos (by push_cast; omega), ok_bind, cntList_zero, foldlM_bumpP (by omega) _ _ h (by simpa using hl), ok_bind]
  simp only [Nat.zero_add]
  have := prefixP_eq (dbg := dbg) ((List.range m).map fun (k : Nat) => (idx.filter fun j => j == (k : Int)).length) [] 0
    (by simpa using hs)
  simp only [List.length_map, List.length_range, List.length_nil, List.nil_append] at this
  have e : cntList m (fun k => (idx.filter fun j => j == (k : Int)).length) =
      ((0 : Nat) : Int) :: ((List.range m).map fun (k : Nat) => (idx.filter fun j => j == (k : Int)).length).map
        fun (c : Nat) => (c : Int) := by
    unfold cntList; rw [List.map_map]; rfl
  rw [e, this, runSum_eq]
  rfl

/-! ### tasks -/

@[simp] theorem Task.ret_bind {α β : Type} (x : α) (f : α → Task V β) : (Task.ret x >>= f) = f x := rfl
@[simp] theorem Task.pure_bind' {α β : Type} (x : α) (f : α → Task V β) : ((pure x : Task V α) >>= f) = f x := rfl
@[simp] theorem Task.liftM_ok {α : Type} (x : α) : (liftM (Except.ok x : Except Fault α) : Task V α) = .ret x := rfl
@[simp] theorem Task.store_bind {α β : Type} (e : Stores V) (k : Task V α) (f : α → Task V β) :
    (Task.store e k >>= f) = .store e (k >>= f) := rfl
@[simp] theorem Task.claim_bind {β : Type} (j : Nat) (f : Int → Task V β) :
    (Task.claim j >>= f) = .fetchAdd j f := rfl

theorem Task.fetchAdd_bind {α β : Type} (j : Nat) (k : Int → Task V α) (f : α → Task V β) :
    (Task.fetchAdd j k >>= f) = .fetchAdd j fun d => k d >>= f := rfl

theorem Task.bind_assoc' {α β γ : Type} (t : Task V α) (f : α → Task V β) (g : β → Task V γ) :
    ((t >>= f) >>= g) = (t >>= fun x => f x >>= g) := by
  show (t.bind f).bind g = t.bind fun x => (f x).bind g
  induction t with
  | ret x => rfl
  | fault e => rfl
  | fetchAdd j k ih => simp only [Task.bind, ih]
  | store e k ih => simp only [Task.bind, ih]

theorem Task.writeIdx_eq {nnz dst : Nat} {x : Int} (h : dst < nnz) :
    (Task.writeIdx nnz dst (.ok x) : Task V Unit) = .store ([(dst, x)], []) (.ret ()) := by
  unfold Task.writeIdx MutPtr.add MutPtr.write
  simp only [Nat.zero_add]
  rw [if_pos (Nat.le_of_lt h)]
  simp [h]

theorem Task.writeVal_eq {nnz dst : Nat} {v : V} (h : dst < nnz) :
    (Task.writeVal nnz dst (.ok v) : Task V Unit) = .store ([], [(dst, v)]) (.ret ()) := by
  unfold Task.writeVal MutPtr.add MutPtr.write
  simp only [Nat.zero_add]
  rw [if_pos (Nat.le_of_lt h)]
  simp [h]

theorem forUp_plan {dbg : Bool} {a : Comp V} (hN : (a.data.length : Int) ≤ i64Max)
    {i : Nat} (hi : (i : Int) ≤ i64Max) :
    ∀ (es : List (Int × V)) (p : Nat),
      (∀ k (h : k < es.length), a.indices[p + k]? = some es[k].1 ∧ a.data[p + k]? = some es[k].2) →
      (∀ e ∈ es, 0 ≤ e.1 ∧ e.1 ≤ i64Max) →
      Plan a.data.length (usizeToI64 i) (Task.forUp (convBody dbg a i) es.length p) es [] []
  | [], _, _, _ => Plan.ret
  | (x, v) :: es, p, h, hb => by
    obtain ⟨h1, h2⟩ := h 0 (by simp)
    obtain ⟨b0, b1⟩ := hb (x, v) (by simp)
    simp only [Nat.add_zero, List.getElem_cons_zero] at h1 h2 b0 b1
    have hx : index a.indices p = .ok x := by unfold index; rw [h1]
    have hv : index a.data p = .ok v := by unfold index; rw [h2]
    have hbody : convBody dbg a i p = .fetchAdd x.toNat (fun d =>
        (liftM (i64ToUsizeP dbg d) : Task V Nat) >>= fun dst =>
        Task.writeIdx a.data.length dst (usizeToI64P dbg i) >>= fun _ =>
        Task.writeVal a.data.length dst (.ok v)) := by
      unfold convBody
      simp only [hx, hv, Task.liftM_ok, Task.ret_bind, i64ToUsizeP_eq b0 b1, Task.claim_bind]
    simp only [List.length_cons, Task.forUp]
    rw [hbody, Task.fetchAdd_bind]
    refine Plan.claim (i64ToUsize_of_nonneg b0 b1).symm fun d d0 d1 => ?_
    have hd : d.toNat < a.data.length := by omega
    rw [i64ToUsizeP_eq d0 (by omega), usizeToI64P_eq hi, usizeToI64_of_le hi]
    simp only [Task.liftM_ok, Task.ret_bind, Task.writeIdx_eq hd, Task.writeVal_eq hd, Task.store_bind]
    refine Plan.idx (Plan.val ?_)
    have := forUp_plan (dbg := dbg) hN hi es (p + 1) (fun k hk => by
      have := h (k + 1) (by simpa using hk)
      simpa [Nat.add_assoc, Nat.add_comm 1 k] using this) (fun e he => hb e (by simp [he]))
    rw [usizeToI64_of_le hi] at this
    exact this

theorem Comp.PtrOk.row_get {a : Comp V} (h : a.PtrOk) {i : Nat} (hi : i < a.n) (k : Nat)
    (hk : k < (a.row i).length) :
    a.indices[a.ptr i + k]? = some (a.row i)[k].1 ∧ a.data[a.ptr i + k]? = some (a.row i)[k].2 := by
  have hl := h.row_length hi
  have h1 := h.ptr_le_indices (i := i + 1) (by omega)
  have h2 := h.ptr_le_data (i := i + 1) (by omega)
  have e : (a.row i)[k] = (a.indices[a.ptr i + k]'(by omega), a.data[a.ptr i + k]'(by omega)) := by
    simp [Comp.row, Comp.entries]
  rw [e]
  exact ⟨List.getElem?_eq_getElem _, List.getElem?_eq_getElem _⟩

theorem Comp.PtrOk.loadTask {a : Comp V} (h : a.PtrOk) (hm : a.Machine) (dbg : Bool) {i : Nat} (hi : i ≤ a.n) :
    ∃ x, index a.indptr i = .ok x ∧ i64ToUsizeP dbg x = .ok (a.ptr i) := by
  have hl := h.ptr_length
  have := h.load hm dbg hi
  rw [index_eq (by omega), ok_bind] at this
  exact ⟨_, index_eq (by omega), this⟩

theorem convLine_plan {dbg : Bool} {a : Comp V} (h : a.PtrOk) (hm : a.Machine)
    (hb : ∀ j ∈ a.indices, 0 ≤ j) {i : Nat} (hi : i < a.n) :
    Plan a.data.length (usizeToI64 i) (convLine dbg a i) (a.row i) [] [] := by
  obtain ⟨x, l1, l2⟩ := h.loadTask hm dbg (i := i) (by omega)
  obtain ⟨y, l3, l4⟩ := h.loadTask hm dbg (i := i + 1) (by omega)
  unfold convLine
  simp only [l1, l2, l3, l4, Task.liftM_ok, Task.ret_bind]
  rw [← h.row_length hi]
  have h1 := hm.data
  have h2 := hm.indptr
  have h3 := h.ptr_length
  exact forUp_plan (by omega) (by omega) (a.row i) (a.ptr i) (fun k hk => h.row_get hi k hk)
    (fun e he => ⟨hb _ (Comp.row_mem_indices he), hm.i64 _ (Comp.row_mem_indices he)⟩)

/-! ### the driver -/

theorem countPtrP_wfu {dbg : Bool} {a : Comp V} (hw : a.WFU) (hm : a.Machine) (hf : a.Fits)
    (hl : 8 * ((a.m : Int) + 1) ≤ i64Max) :
    ∃ ptr, countPtr a.m a.indices = some ptr ∧ countPtrP dbg a.m a.indices = .ok ptr ∧
      ptr = prefixPtr (((List.range a.m).map (tline a.events)).map List.length) := by
  obtain ⟨ptr, ws, g1, _, g3, _, g5⟩ := claimAll_run hw hf (interleaving_events a)
  refine ⟨ptr, g1, ?_, g3⟩
  have e := countPtr_eq (fun j hj => ⟨(hw.bounds j hj).1, hw.i64 j hj, (hw.bounds j hj).2⟩) (m := a.m) (idx := a.indices)
  have e2 : ((List.range a.m).map (tline a.events)).map List.length =
      (List.range a.m).map fun (k : Nat) => (a.indices.filter fun j => j == (k : Int)).length := by
    rw [List.map_map]
    apply List.map_congr_left
    intro j _
    rw [(((interleaving_events a).snds hw).filter fun k => k == (j : Int)).length_eq.symm, List.filter_map,
      List.length_map]
    simp only [Function.comp, tline, List.length_map]
    rfl
  have hsum : (((List.range a.m).map fun (k : Nat) => (a.indices.filter fun j => j == (k : Int)).length).sum : Nat)
      = a.data.length := by
    rw [← e2, ← List.length_flatten, ← g5]
  rw [g3, e2]
  exact countPtrP_eq hl hw.bounds (by have := hm.indices; omega) (by rw [hsum]; exact hf.2)

theorem claimsLeft_row {a : Comp V} (hw : a.WFU) (j : Nat) :
    claimsLeft a.n a.row j = (tline a.events j).length := by
  unfold claimsLeft tline Comp.events
  rw [List.length_map, List.filter_flatMap, List.filter_flatMap, List.length_flatMap, List.length_flatMap]
  congr 1
  apply List.map_congr_left
  intro i _
  rw [List.filter_map, List.length_map]
  congr 1
  apply List.filter_congr
  intro e he
  have h1 := hw.row_bounds i e he
  have h2 := hw.row_i64 i e he
  simp only [Function.comp, i64ToUsize_of_nonneg h1.1 h2]
  exact toNat_eq_iff h1.1 j

theorem onPlan_init {a : Comp V} (hw : a.WFU) (hf : a.Fits) {line : Nat → Task V Unit} {ptr : List Int}
    (hp : ptr = prefixPtr (((List.range a.m).map (tline a.events)).map List.length))
    (hlen : a.data.length = ((List.range a.m).map (tline a.events)).flatten.length)
    (h : ∀ i, i < a.n → Plan a.data.length (usizeToI64 i) (line i) (a.row i) [] []) :
    OnPlan a.data.length a.n ptr ((List.range a.n).map line) (List.replicate a.n ([], [])) a.row
      (fun _ => []) (fun _ => []) := by
  refine ⟨hf.2, by simp, by simp, ?_, ?_, ?_⟩
  · intro i hi t ht
    rw [List.getElem?_map, List.getElem?_range hi] at ht
    cases ht
    exact h i hi
  · intro j d hd
    rw [hp] at hd
    have hj := (List.getElem?_eq_some_iff.1 hd).1
    simp only [prefixPtr_length, List.length_map, List.length_range] at hj
    have hg := prefixPtr_getD (((List.range a.m).map (tline a.events)).map List.length) j (by simp; omega)
    rw [List.getD_eq_getElem?_getD, hd] at hg
    simp only [Option.getD_some] at hg
    rw [claimsLeft_row hw]
    refine ⟨by omega, ?_⟩
    by_cases hjm : j < a.m
    · have h2 := sum_take_le (((List.range a.m).map (tline a.events)).map List.length) (j + 1)
      rw [List.take_succ_eq_append_getElem (by simpa using hjm), List.sum_append, ← List.length_flatten, ← hlen] at h2
      simp only [List.getElem_map, List.getElem_range, List.sum_cons, List.sum_nil] at h2
      omega
    · have h2 := sum_take_le (((List.range a.m).map (tline a.events)).map List.length) j
      rw [← List.length_flatten, ← hlen] at h2
      have h3 : tline a.events j = [] := by
        unfold tline
        rw [List.map_eq_nil_iff, List.filter_eq_nil_iff]
        intro e he
        have := (hw.row_bounds _ _ ((interleaving_events a).mem he).2).2
        simp; omega
      rw [h3]
      simp only [List.length_nil]
      omega
  · intro i hi e he
    have h1 := hw.row_bounds i e he
    have h2 := hw.row_i64 i e he
    rw [i64ToUsize_of_nonneg h1.1 h2, hp]
    simp
    omega

theorem assemble_iff [Zero V] {α : Type} {nnz : Nat} {evs : List (Stores V)} {mk : List Int → List V → α}
    {ws : List (Nat × (Int × V))} {flat : List (Int × V)}
    (h1 : (evs.flatMap Prod.fst).Perm (ws.map fun w => (w.1, w.2.1)))
    (h2 : (evs.flatMap Prod.snd).Perm (ws.map fun w => (w.1, w.2.2)))
    (hp : ws.Perm (lineWrites 0 flat)) (hl : nnz = flat.length) (out : Except Fault α) :
    Assemble nnz evs mk out ↔ out = .ok (mk (flat.map Prod.fst) (flat.map Prod.snd)) := by
  have hn : (ws.map Prod.fst).Nodup := by
    refine ((hp.map Prod.fst).nodup_iff).2 ?_
    rw [lineWrites_fst]; exact List.nodup_range'
  have n1 : ((evs.flatMap Prod.fst).map Prod.fst).Nodup := by
    refine ((h1.map Prod.fst).nodup_iff).2 ?_
    rw [List.map_map]; exact hn
  have n2 : ((evs.flatMap Prod.snd).map Prod.fst).Nodup := by
    refine ((h2.map Prod.fst).nodup_iff).2 ?_
    rw [List.map_map]; exact hn
  have hrf := raceFree_of_nodup n1 n2
  have key : ∀ (wi : List (Nat × Int)) (wv : List (Nat × V)), wi.Perm (evs.flatMap Prod.fst) →
      wv.Perm (evs.flatMap Prod.snd) →
      applyWrites (List.replicate nnz 0) wi = flat.map Prod.fst ∧
      applyWrites (List.replicate nnz 0) wv = flat.map Prod.snd := fun wi wv a b =>
    ⟨applyWrites_scatter_map Prod.fst hp (a.trans h1) (by simp [hl]),
     applyWrites_scatter_map Prod.snd hp (b.trans h2) (by simp [hl])⟩
  unfold Assemble
  constructor
  · rintro (⟨h, _⟩ | ⟨_, wi, wv, a, b, rfl⟩)
    · exact absurd hrf h
    · rw [(key wi wv a b).1, (key wi wv a b).2]
  · rintro rfl
    refine .inr ⟨hrf, _, _, List.Perm.refl _, List.Perm.refl _, ?_⟩
    rw [(key _ _ (List.Perm.refl _) (List.Perm.refl _)).1, (key _ _ (List.Perm.refl _) (List.Perm.refl _)).2]

/-- A fill whose lines follow their plans has exactly the outcomes of the list-level model. -/
theorem atomicFillPtr_iff [Zero V] {dbg : Bool} {line : Nat → Task V Unit} {a : Comp V} (hw : a.WFU)
    (hm : a.Machine) (hf : a.Fits) (hl : 8 * ((a.m : Int) + 1) ≤ i64Max)
    (h : ∀ i, i < a.n → Plan a.data.length (usizeToI64 i) (line i) (a.row i) [] [])
    (out : Except Fault (Comp V)) :
    AtomicFillPtr dbg line a out ↔ ∃ r, AtomicFillRun a r ∧ out = .ok r := by
  obtain ⟨ptr, c1, c2, c3⟩ := countPtrP_wfu (dbg := dbg) hw hm hf hl
  obtain ⟨_, _, _, _, _, _, hlen⟩ := claimAll_run hw hf (interleaving_events a)
  have hon := onPlan_init hw hf c3 hlen h
  have nil1 : (List.replicate a.n (([], []) : Stores V)).flatMap Prod.fst ++ (List.range a.n).flatMap (fun _ => []) = [] := by
    rw [flatMap_range_nil (fun _ _ => rfl), List.append_nil, List.flatMap_eq_nil_iff]
    intro x hx; rw [(List.mem_replicate.1 hx).2]
  have nil2 : (List.replicate a.n (([], []) : Stores V)).flatMap Prod.snd ++ (List.range a.n).flatMap (fun _ => []) = [] := by
    rw [flatMap_range_nil (fun _ _ => rfl), List.append_nil, List.flatMap_eq_nil_iff]
    intro x hx; rw [(List.mem_replicate.1 hx).2]
  have asm : ∀ {evs : List (Stores V)} {sched ws}, Interleaving a sched → claimAll ptr sched = some ws →
      (evs.flatMap Prod.fst).Perm (ws.map fun w => (w.1, w.2.1)) →
      (evs.flatMap Prod.snd).Perm (ws.map fun w => (w.1, w.2.2)) → ∀ o,
      Assemble a.data.length evs (fun idx val => (⟨a.m, a.n, ptr, idx, val⟩ : Comp V)) o ↔
        o = .ok (tcomp a sched) := by
    intro evs sched ws hs hc p1 p2 o
    obtain ⟨ptr', ws', g1, g2, g3, g4, g5⟩ := claimAll_run hw hf hs
    rw [c1] at g1; cases g1
    rw [hc] at g2; cases g2
    rw [assemble_iff p1 p2 g4 g5, g3]
    unfold tcomp Comp.ofRows
    simp
  unfold AtomicFillPtr
  rw [c2]
  constructor
  · rintro ⟨oe, hr, ho⟩
    obtain ⟨evs, sched, ws, rfl, hs, hc, p1, p2⟩ := concRun_sched hr hon
    rw [nil1, List.nil_append] at p1
    rw [nil2, List.nil_append] at p2
    exact ⟨_, atomicFill_of hw hf hs, (asm hs hc p1 p2 out).1 ho⟩
  · rintro ⟨r, hr, rfl⟩
    obtain ⟨sched, hs, rfl⟩ := atomicFill_eq hw hf hr
    obtain ⟨evs, ws, hrun, hc, p1, p2⟩ := concRun_exists _ hon hs rfl
    rw [nil1, List.nil_append] at p1
    rw [nil2, List.nil_append] at p2
    exact ⟨.ok evs, hrun, (asm hs hc p1 p2 _).2 rfl⟩

/-- Too many target lines: the pointer array cannot be allocated. -/
theorem countPtrP_big {dbg : Bool} {m : Nat} {idx : List Int} (hu : m ≤ usizeMax)
    (hm : i64Max < 8 * ((m : Int) + 1)) (h : ∀ j ∈ idx, 0 ≤ j ∧ j ≤ i64Max) :
    countPtrP dbg m idx = .error .panic := by
  unfold countPtrP addUsize
  split
  · rw [ok_bind]
    unfold zerosP
    rw [if_neg (by push_cast; omega)]
    rfl
  · rename_i hb
    cases dbg with
    | true => rfl
    | false =>
      have e : (m + 1) % 2 ^ 64 = 0 := by unfold usizeMax at hu hb; omega
      rw [if_neg (by decide), ok_bind, e]
      unfold zerosP
      rw [if_pos (by unfold i64Max; decide), ok_bind]
      cases idx with
      | nil =>
        obtain ⟨k, rfl⟩ : ∃ k, m = k + 1 := ⟨m - 1, by unfold usizeMax at hb; omega⟩
        rfl
      | cons j idx =>
        obtain ⟨h0, h1⟩ := h j (by simp)
        have hj : ((j.toNat + 1 : Nat) : Nat) ≤ usizeMax := by unfold i64Max at h1; unfold usizeMax; omega
        rw [List.foldlM_cons]
        have : bumpCountP false (List.replicate 0 0) j = .error .panic := by
          unfold bumpCountP
          rw [i64ToUsizeP_eq h0 h1, ok_bind]
          unfold addUsize
          rw [if_pos hj, ok_bind]
          rfl
        rw [this]
        rfl

theorem atomicFillPtr_big [Zero V] {dbg : Bool} {line : Nat → Task V Unit} {a : Comp V} (hu : a.m ≤ usizeMax)
    (hm : i64Max < 8 * ((a.m : Int) + 1)) (h : ∀ j ∈ a.indices, 0 ≤ j ∧ j ≤ i64Max)
    (out : Except Fault (Comp V)) : AtomicFillPtr dbg line a out ↔ out = .error .panic := by
  unfold AtomicFillPtr
  rw [countPtrP_big hu hm h]

/-! ### expansion to coordinates -/

/-- The stores for one entry of the expansion. -/
def cooEv (w : Nat × (Int × (Int × V))) : (Nat × Int) × (Nat × Int) × (Nat × V) :=
  ((w.1, w.2.1), (w.1, w.2.2.1), (w.1, w.2.2.2))

theorem collectUp_coo {body : Nat → Except Fault ((Nat × Int) × (Nat × Int) × (Nat × V))} (i : Int) :
    ∀ (es : List (Int × V)) (p : Nat),
      (∀ k (h : k < es.length), body (p + k) = .ok ((p + k, i), (p + k, es[k].1), (p + k, es[k].2))) →
      collectUp body es.length p = .ok ((lineWrites p (es.map fun e => (i, e))).map cooEv)
  | [], _, _ => rfl
  | e :: es, p, h => by
    have h0 := h 0 (by simp)
    simp only [Nat.add_zero, List.getElem_cons_zero] at h0
    have ih := collectUp_coo i es (p + 1) (fun k hk => by
      have := h (k + 1) (by simpa using hk)
      simpa [Nat.add_assoc, Nat.add_comm 1 k] using this)
    simp only [List.length_cons, collectUp]
    rw [h0, ok_bind, ih, ok_bind]
    rfl

theorem MutPtr.add_zero_eq {cap k : Nat} (h : k ≤ cap) : MutPtr.add ⟨cap, 0⟩ k = .ok ⟨cap, k⟩ := by
  unfold MutPtr.add; simp only [Nat.zero_add]; rw [if_pos h]

theorem MutPtr.write_eq {α : Type} {cap k : Nat} {x : α} (h : k < cap) :
    MutPtr.write ⟨cap, k⟩ x = .ok (k, x) := if_pos h

theorem cooLine_eq {dbg : Bool} {a : Comp V} (h : a.PtrOk) (hm : a.Machine) {i : Nat} (hi : i < a.n) :
    csrCooLine dbg a i = .ok ((lineWrites (a.ptr i) ((a.row i).map fun e => (usizeToI64 i, e))).map cooEv) ∧
    cscCooLine dbg a i = .ok ((lineWrites (a.ptr i) ((a.row i).map fun e => (usizeToI64 i, e))).map cooEv) := by
  obtain ⟨x, l1, l2⟩ := h.loadTask hm dbg (i := i) (by omega)
  obtain ⟨y, l3, l4⟩ := h.loadTask hm dbg (i := i + 1) (by omega)
  have hl := h.row_length hi
  have hle := h.ptr_le_data (i := i + 1) (by omega)
  have h2 := hm.indptr
  have h3 := h.ptr_length
  have hi' : (i : Int) ≤ i64Max := by omega
  constructor
  · unfold csrCooLine
    rw [l1, ok_bind, l2, ok_bind, l3, ok_bind, l4, ok_bind, ← hl]
    refine collectUp_coo (usizeToI64 i) (a.row i) (a.ptr i) fun k hk => ?_
    obtain ⟨g1, g2⟩ := h.row_get hi k hk
    have q : a.ptr i + k < a.data.length := by omega
    have hx : index a.indices (a.ptr i + k) = .ok (a.row i)[k].1 := by unfold index; rw [g1]
    have hv : index a.data (a.ptr i + k) = .ok (a.row i)[k].2 := by unfold index; rw [g2]
    simp only [MutPtr.add_zero_eq (Nat.le_of_lt q), ok_bind, usizeToI64P_eq hi', MutPtr.write_eq q, hx, hv,
      usizeToI64_of_le hi']
    rfl
  · unfold cscCooLine
    rw [l1, ok_bind, l2, ok_bind, l3, ok_bind, l4, ok_bind, ← hl]
    refine collectUp_coo (usizeToI64 i) (a.row i) (a.ptr i) fun k hk => ?_
    obtain ⟨g1, g2⟩ := h.row_get hi k hk
    have q : a.ptr i + k < a.data.length := by omega
    have hx : index a.indices (a.ptr i + k) = .ok (a.row i)[k].1 := by unfold index; rw [g1]
    have hv : index a.data (a.ptr i + k) = .ok (a.row i)[k].2 := by unfold index; rw [g2]
    simp only [MutPtr.add_zero_eq (Nat.le_of_lt q), ok_bind, usizeToI64P_eq hi', MutPtr.write_eq q, hx, hv,
      usizeToI64_of_le hi']
    rfl

theorem cooWrites_positions {a : Comp V} (h : a.PtrOk) (k : Nat) (hk : k ≤ a.n) :
    ((List.range k).flatMap fun i => lineWrites (a.ptr i) ((a.row i).map fun e => (usizeToI64 i, e))).map Prod.fst
      = List.range' (a.ptr 0) (a.ptr k - a.ptr 0) := by
  induction k with
  | zero => simp
  | succ k ih =>
    rw [List.range_succ, List.flatMap_append, List.map_append, ih (by omega)]
    simp only [List.flatMap_cons, List.flatMap_nil, List.append_nil]
    rw [lineWrites_fst, List.length_map, h.row_length (by omega)]
    have h1 := h.ptr_mono' (i := 0) (j := k) (by omega) (by omega)
    have h2 := h.ptr_mono' (i := k) (j := k + 1) (by omega) (by omega)
    have e : a.ptr k = a.ptr 0 + 1 * (a.ptr k - a.ptr 0) := by omega
    have := List.range'_append (s := a.ptr 0) (m := a.ptr k - a.ptr 0) (n := a.ptr (k + 1) - a.ptr k) (step := 1)
    rw [← e] at this
    rw [this]
    congr 1
    omega

theorem parStore_nodup {α : Type} {init : List α} {evs : List (List (Nat × α))}
    (h : (evs.flatten.map Prod.fst).Nodup) (out : Except Fault (List α)) :
    ParStore init evs out ↔ ∃ w, w.Perm evs.flatten ∧ out = .ok (applyWrites init w) := by
  have hrf := raceFree1_of_nodup h
  unfold ParStore
  constructor
  · rintro (⟨h1, _⟩ | ⟨_, r⟩)
    · exact absurd hrf h1
    · exact r
  · exact fun r => .inr ⟨hrf, r⟩

theorem cooFillPtr_iff [Zero V] {line : Nat → Except Fault (List ((Nat × Int) × (Nat × Int) × (Nat × V)))}
    {a : Comp V} (h : a.PtrOk)
    (hl : ∀ i, i < a.n → line i =
      .ok ((lineWrites (a.ptr i) ((a.row i).map fun e => (usizeToI64 i, e))).map cooEv))
    (out : Except Fault (List Int × List Int × List V)) :
    CooFillPtr line a out ↔ ∃ l x d, CooFillRun a l x d ∧ out = .ok (l, x, d) := by
  have hpos := cooWrites_positions h a.n (Nat.le_refl _)
  have hnd : ((cooWrites a).map Prod.fst).Nodup := by
    unfold cooWrites; rw [hpos]; exact List.nodup_range'
  have fl : ∀ {β : Type} (f : (Nat × Int) × (Nat × Int) × (Nat × V) → β),
      ((((List.range a.n).map fun i =>
        (lineWrites (a.ptr i) ((a.row i).map fun e => (usizeToI64 i, e))).map cooEv).map
          fun l => l.map f).flatten) = (cooWrites a).map fun w => f (cooEv w) := by
    intro β f
    unfold cooWrites
    rw [List.map_map, List.map_flatMap, ← List.flatMap_def]
    congr 1
    funext i
    simp only [Function.comp, List.map_map]
    rfl
  have e1 := fl fun e => e.1
  have e2 := fl fun e => e.2.1
  have e3 := fl fun e => e.2.2
  have n1 := (parStore_nodup (init := List.replicate a.data.length (0 : Int)) (evs := ((List.range a.n).map fun i =>
        (lineWrites (a.ptr i) ((a.row i).map fun e => (usizeToI64 i, e))).map cooEv).map fun l => l.map fun e => e.1)
        (by rw [e1, List.map_map]; exact hnd))
  have n2 := (parStore_nodup (init := List.replicate a.data.length (0 : Int)) (evs := ((List.range a.n).map fun i =>
        (lineWrites (a.ptr i) ((a.row i).map fun e => (usizeToI64 i, e))).map cooEv).map fun l => l.map fun e => e.2.1)
        (by rw [e2, List.map_map]; exact hnd))
  have n3 := (parStore_nodup (init := List.replicate a.data.length (0 : V)) (evs := ((List.range a.n).map fun i =>
        (lineWrites (a.ptr i) ((a.row i).map fun e => (usizeToI64 i, e))).map cooEv).map fun l => l.map fun e => e.2.2)
        (by rw [e3, List.map_map]; exact hnd))
  rw [e1] at n1
  rw [e2] at n2
  rw [e3] at n3
  unfold CooFillPtr
  constructor
  · rintro ⟨oe, hp, ho⟩
    have hoe := (parCollect_ok hl oe).1 hp
    subst hoe
    obtain ⟨o1, o2, o3, p1, p2, p3, rfl⟩ := ho
    obtain ⟨w1, q1, rfl⟩ := (n1 o1).1 p1
    obtain ⟨w2, q2, rfl⟩ := (n2 o2).1 p2
    obtain ⟨w3, q3, rfl⟩ := (n3 o3).1 p3
    exact ⟨_, _, _, ⟨w1, w2, w3, q1, q2, q3, rfl, rfl, rfl⟩, rfl⟩
  · rintro ⟨l, x, d, ⟨w1, w2, w3, q1, q2, q3, rfl, rfl, rfl⟩, rfl⟩
    exact ⟨_, (parCollect_ok hl _).2 rfl, _, _, _, (n1 _).2 ⟨w1, q1, rfl⟩, (n2 _).2 ⟨w2, q2, rfl⟩,
      (n3 _).2 ⟨w3, q3, rfl⟩, rfl⟩

end Lacuna
