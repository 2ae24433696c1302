import Verif.Model.PtrAccum
import Verif.Lemmas.PtrNd
import Verif.Lemmas.PtrCumulative
import Verif.Props.HashMap
/- The pointer-level hash map. -/
namespace Lacuna
variable {V : Type}

/-! ### Outcomes that are not undefined behaviour -/

/-- Not undefined behaviour, and a returned value satisfies `P`. -/
def SafeE {α : Type} (P : α → Prop) (e : Except Fault α) : Prop := e ≠ .error .ub ∧ ∀ x, e = .ok x → P x

theorem SafeE.ok {α : Type} {P : α → Prop} {x : α} (h : P x) : SafeE P (.ok x) :=
  ⟨(by intro h; cases h), (by intro y hy; cases hy; exact h)⟩
theorem SafeE.panic {α : Type} {P : α → Prop} : SafeE P (.error .panic : Except Fault α) :=
  ⟨(by intro h; cases h), (by intro _ h; cases h)⟩
theorem SafeE.fuel {α : Type} {P : α → Prop} : SafeE P (.error .fuel : Except Fault α) :=
  ⟨(by intro h; cases h), (by intro _ h; cases h)⟩
theorem SafeE.mono {α : Type} {P Q : α → Prop} {e : Except Fault α} (h : SafeE P e) (hpq : ∀ x, P x → Q x) :
    SafeE Q e := ⟨h.1, fun x hx => hpq x (h.2 x hx)⟩
theorem SafeE.bind {α β : Type} {P : α → Prop} {Q : β → Prop} {m : Except Fault α} {f : α → Except Fault β}
    (h : SafeE P m) (hf : ∀ x, P x → SafeE Q (f x)) : SafeE Q (m >>= f) := by
  cases m with
  | ok x => exact hf x (h.2 x rfl)
  | error e =>
    refine ⟨fun h' => h.1 ?_, fun y hy => by cases hy⟩
    cases h'; rfl
theorem SafeE.index {α : Type} (v : List α) (i : Nat) : SafeE (fun x => x ∈ v) (index v i) := by
  unfold Lacuna.index
  split
  · rename_i x hx; exact SafeE.ok (List.mem_of_getElem? hx)
  · exact SafeE.panic
theorem SafeE.getUnchecked {α : Type} {v : List α} {i : Nat} (h : i < v.length) :
    SafeE (fun x => x ∈ v) (getUnchecked v i) := by
  rw [getUnchecked_eq h]; exact SafeE.ok (List.getElem_mem h)
theorem SafeE.storeIdx {α : Type} (v : List α) (i : Nat) (x : α) :
    SafeE (fun w => w = v.set i x) (storeIdx v i x) := by
  unfold Lacuna.storeIdx
  split
  · exact SafeE.ok rfl
  · exact SafeE.panic
theorem setUnchecked_eq {α : Type} {v : List α} {i : Nat} (h : i < v.length) (x : α) :
    setUnchecked v i x = .ok (v.set i x) := if_pos h
theorem SafeE.i64ToUsizeP (dbg : Bool) (x : Int) : SafeE (fun y => y = asUsize x) (i64ToUsizeP dbg x) := by
  unfold Lacuna.i64ToUsizeP
  split
  · exact SafeE.panic
  · exact SafeE.ok rfl
theorem SafeE.noUb {α : Type} {e : Except Fault α} (h : NoUb e) : SafeE (fun _ => True) e :=
  ⟨h, fun _ _ => trivial⟩
theorem SafeE.withCapP (sz n : Nat) : SafeE (fun _ => (sz : Int) * n ≤ i64Max) (withCapP sz n) := by
  unfold Lacuna.withCapP
  split
  · rename_i h; exact SafeE.ok h
  · exact SafeE.panic
theorem SafeE.mulUsize (dbg : Bool) (a b : Nat) : SafeE (fun _ => True) (mulUsize dbg a b) := by
  unfold Lacuna.mulUsize
  split
  · exact SafeE.ok trivial
  · split
    · exact SafeE.panic
    · exact SafeE.ok trivial
theorem SafeE.foldlM {σ α : Type} {I : σ → Prop} {f : σ → α → Except Fault σ} (l : List α)
    (h : ∀ x ∈ l, ∀ s, I s → SafeE I (f s x)) (s : σ) (hs : I s) : SafeE I (l.foldlM f s) := by
  induction l generalizing s with
  | nil => exact SafeE.ok hs
  | cons x l ih =>
    rw [List.foldlM_cons]
    exact (h x (by simp) s hs).bind fun s' hs' => ih (fun y hy => h y (by simp [hy])) s' hs'
theorem SafeE.ofOptionP {α : Type} {P : α → Prop} {o : Option α} (h : ∀ x, o = some x → P x) :
    SafeE P (ofOptionP o) := by
  cases o with
  | none => exact SafeE.panic
  | some x => exact SafeE.ok (h x rfl)

namespace HMap

/-! ### Any insertions: no undefined behaviour -/

/-- What every reachable map satisfies, whatever was inserted. -/
structure Shape (m : HMap V) : Prop where
  pow : ∃ p, m.keys.length = 2 ^ p
  vlen : m.vals.length = m.keys.length
  mask : m.mask = m.keys.length - 1
  mem : 8 * (m.keys.length : Int) ≤ i64Max

theorem mask_lt {p x len mask : Nat} (hl : len = 2 ^ p) (hm : mask = len - 1) : x &&& mask < len := by
  rw [hm, hl, and_mask]; exact Nat.mod_lt _ (Nat.two_pow_pos p)

theorem probeP_safe {keys : List Nat} {p mask key : Nat} (hl : keys.length = 2 ^ p) (hm : mask = keys.length - 1)
    (F : Nat) : ∀ idx, idx < keys.length → SafeE (fun j => j < keys.length) (probeP keys mask key F idx) := by
  induction F with
  | zero => intro idx _; exact SafeE.fuel
  | succ F ih =>
    intro idx hi
    unfold probeP
    refine (SafeE.getUnchecked hi).bind fun k _ => ?_
    split
    · exact SafeE.ok hi
    · split
      · exact SafeE.ok hi
      · exact ih _ (mask_lt hl hm)

theorem probeFreeP_safe {keys : List Nat} {mask : Nat} (F : Nat) : ∀ idx,
    SafeE (fun _ => True) (probeFreeP keys mask F idx) := by
  induction F with
  | zero => intro idx; exact SafeE.fuel
  | succ F ih =>
    intro idx
    unfold probeFreeP
    refine (SafeE.index _ _).bind fun k _ => ?_
    split
    · exact SafeE.ok trivial
    · exact ih _

theorem rehashP_safe {F : Nat} {m : HMap V} {newMask cap : Nat} {st : List Nat × List V} (i : Nat)
    (h : st.1.length = cap ∧ st.2.length = cap ∧ ∀ k ∈ st.1, k ∈ m.keys ∨ k = usizeMax) :
    SafeE (fun st => st.1.length = cap ∧ st.2.length = cap ∧ ∀ k ∈ st.1, k ∈ m.keys ∨ k = usizeMax)
      (rehashP F m newMask st i) := by
  unfold rehashP
  refine (SafeE.index _ _).bind fun k hk => ?_
  split
  · exact SafeE.ok h
  · refine (probeFreeP_safe F _).bind fun idx _ => (SafeE.storeIdx _ _ _).bind fun keys hkeys =>
      (SafeE.index _ _).bind fun v _ => (SafeE.storeIdx _ _ _).bind fun vals hvals => SafeE.ok ?_
    subst hkeys hvals
    refine ⟨by simpa using h.1, by simpa using h.2.1, fun k' hk' => ?_⟩
    rcases List.mem_or_eq_of_mem_set hk' with h' | rfl
    · exact h.2.2 k' h'
    · exact .inl hk

theorem growP_safe [Zero V] {dbg : Bool} {F : Nat} {m : HMap V} (h : m.Shape) :
    SafeE (fun m' => m'.Shape ∧ ∀ k ∈ m'.keys, k ∈ m.keys ∨ k = usizeMax) (growP dbg F m) := by
  obtain ⟨p, hp⟩ := h.pow
  have hpos : 0 < 2 ^ p := Nat.two_pow_pos p
  have hmem := h.mem
  unfold growP
  rw [mulUsize_eq (by unfold i64Max at hmem; unfold usizeMax; omega), ok_bind]
  refine (SafeE.withCapP _ _).bind fun _ hcap => ?_
  rw [subUsize_eq (by omega), ok_bind]
  refine (SafeE.foldlM (I := fun st : List Nat × List V => st.1.length = m.keys.length * 2 ∧
    st.2.length = m.keys.length * 2 ∧ ∀ k ∈ st.1, k ∈ m.keys ∨ k = usizeMax) _
    (fun i _ st hst => rehashP_safe i hst) _ ⟨by simp, by simp, fun k hk => .inr (List.eq_of_mem_replicate hk)⟩).bind
    fun st hst => SafeE.ok ⟨⟨⟨p + 1, ?_⟩, ?_, ?_, ?_⟩, hst.2.2⟩
  · show st.1.length = _; rw [hst.1, hp, Nat.pow_succ]
  · show st.2.length = st.1.length; rw [hst.1, hst.2.1]
  · show m.keys.length * 2 - 1 = st.1.length - 1; rw [hst.1]
  · show 8 * (st.1.length : Int) ≤ _
    rw [hst.1]; exact_mod_cast hcap

theorem insertAddP_safe [Zero V] [Add V] {dbg : Bool} {F : Nat} {m : HMap V} (h : m.Shape) (key : Nat) (val : V) :
    SafeE (fun m' => m'.Shape ∧ ∀ k ∈ m'.keys, k ∈ m.keys ∨ k = key ∨ k = usizeMax)
      (insertAddP dbg F m key val) := by
  obtain ⟨p, hp⟩ := h.pow
  unfold insertAddP
  split
  · exact SafeE.panic
  refine (probeP_safe hp h.mask F _ (mask_lt hp h.mask)).bind fun idx hidx => ?_
  have hv : idx < m.vals.length := by rw [h.vlen]; exact hidx
  refine (SafeE.getUnchecked hidx).bind fun k _ => ?_
  have hS : Shape (⟨m.keys.set idx key, m.vals.set idx val, m.mask, m.len⟩ : HMap V) :=
    ⟨⟨p, by simpa using hp⟩, by simpa using h.vlen, by simpa using h.mask, by simpa using h.mem⟩
  have hK : ∀ k ∈ m.keys.set idx key, k ∈ m.keys ∨ k = key ∨ k = usizeMax := by
    intro k hk
    rcases List.mem_or_eq_of_mem_set hk with h' | h'
    · exact .inl h'
    · exact .inr (.inl h')
  split
  · rw [setUnchecked_eq hidx, ok_bind, setUnchecked_eq hv, ok_bind]
    refine (SafeE.noUb (NoUb.addUsize _ _ _)).bind fun len _ => (SafeE.mulUsize _ _ _).bind fun load _ =>
      (SafeE.mulUsize _ _ _).bind fun limit _ => ?_
    split
    · refine (growP_safe (m := ⟨m.keys.set idx key, m.vals.set idx val, m.mask, len⟩)
        ⟨hS.pow, hS.vlen, hS.mask, hS.mem⟩).mono fun m' hm' => ⟨hm'.1, fun k hk => ?_⟩
      rcases hm'.2 k hk with h' | h'
      · exact hK k h'
      · exact .inr (.inr h')
    · exact SafeE.ok ⟨⟨hS.pow, hS.vlen, hS.mask, hS.mem⟩, hK⟩
  · rw [getUnchecked_eq hv, ok_bind, setUnchecked_eq hv, ok_bind]
    exact SafeE.ok ⟨⟨h.pow, by simpa using h.vlen, h.mask, h.mem⟩, fun k hk => .inl hk⟩

theorem insertAllP_safe [Zero V] [Add V] {dbg : Bool} {F : Nat} (ops : List (Nat × V)) (m : HMap V) (h : m.Shape)
    (P : Nat → Prop) (hP : ∀ k ∈ m.keys, P k ∨ k = usizeMax) (ho : ∀ o ∈ ops, P o.1 ∨ o.1 = usizeMax) :
    SafeE (fun m' => m'.Shape ∧ ∀ k ∈ m'.keys, P k ∨ k = usizeMax) (insertAllP dbg F m ops) := by
  unfold insertAllP
  refine SafeE.foldlM (I := fun m : HMap V => m.Shape ∧ ∀ k ∈ m.keys, P k ∨ k = usizeMax) ops
    (fun o hmem m hm => (insertAddP_safe hm.1 o.1 o.2).mono fun m' hm' => ⟨hm'.1, fun k hk => ?_⟩) m ⟨h, hP⟩
  rcases hm'.2 k hk with h' | rfl | h'
  · exact hm.2 k h'
  · exact ho o hmem
  · exact .inr h'

theorem withCapacity_keys [Zero V] (cap : Nat) : ∀ k ∈ (withCapacity cap : HMap V).keys, k = usizeMax :=
  fun _ hk => List.eq_of_mem_replicate hk

theorem withCapacity_length [Zero V] (cap : Nat) :
    (withCapacity cap : HMap V).keys.length = max (nextPow2 cap) 16 := by
  unfold withCapacity; simp

theorem withCapacity_shape [Zero V] {cap : Nat} (h : 8 * ((max (nextPow2 cap) 16 : Nat) : Int) ≤ i64Max) :
    (withCapacity cap : HMap V).Shape :=
  have hi := inv_withCapacity (V := V) cap
  ⟨hi.pow, hi.vlen, hi.mask, by rw [withCapacity_length]; exact h⟩

theorem nextPow2_1024 : nextPow2 1024 = 1024 := by unfold nextPow2; decide

theorem shape_1024 [Zero V] : (withCapacity 1024 : HMap V).Shape :=
  withCapacity_shape (by rw [nextPow2_1024]; decide)

/-! ### Valid insertions: the list-level map -/

theorem probeP_of {keys : List Nat} {p mask key : Nat} (hl : keys.length = 2 ^ p) (hm : mask = keys.length - 1)
    (f : Nat) : ∀ F idx j, f ≤ F → idx < keys.length → probe keys mask key f idx = some j →
      probeP keys mask key F idx = .ok j ∧ j < keys.length := by
  induction f with
  | zero => intro F idx j _ _ h; cases h
  | succ f ih =>
    intro F idx j hF hi h
    obtain ⟨F, rfl⟩ : ∃ F', F = F' + 1 := ⟨F - 1, by omega⟩
    unfold probe at h
    unfold probeP
    rw [getUnchecked_eq hi, ok_bind]
    have hg : keys.getD idx usizeMax = keys[idx] := List.getD_eq_getElem _ _ hi
    simp only [hg] at h
    split at h
    · rename_i h1; cases h; rw [if_pos h1]; exact ⟨rfl, hi⟩
    · rename_i h1
      rw [if_neg h1]
      split at h
      · rename_i h2; cases h; rw [if_pos h2]; exact ⟨rfl, hi⟩
      · rename_i h2
        rw [if_neg h2]
        exact ih F _ j (by omega) (mask_lt hl hm) h

theorem probeFreeP_of {keys : List Nat} {p mask : Nat} (hl : keys.length = 2 ^ p) (hm : mask = keys.length - 1)
    (f : Nat) : ∀ F idx j, f ≤ F → idx < keys.length → probeFree keys mask f idx = some j →
      probeFreeP keys mask F idx = .ok j ∧ j < keys.length := by
  induction f with
  | zero => intro F idx j _ _ h; cases h
  | succ f ih =>
    intro F idx j hF hi h
    obtain ⟨F, rfl⟩ : ∃ F', F = F' + 1 := ⟨F - 1, by omega⟩
    unfold probeFree at h
    unfold probeFreeP
    rw [index_eq hi, ok_bind]
    have hg : keys.getD idx usizeMax = keys[idx] := List.getD_eq_getElem _ _ hi
    simp only [hg] at h
    split at h
    · rename_i h1; cases h; rw [if_pos h1]; exact ⟨rfl, hi⟩
    · rename_i h1
      rw [if_neg h1]
      exact ih F _ j (by omega) (mask_lt hl hm) h

theorem rehash_none (newMask : Nat) (l : List (Nat × V)) : l.foldl (rehash newMask) none = none := by
  induction l with
  | nil => rfl
  | cons x l ih => exact ih

theorem rehashP_fold [Zero V] {F p newMask : Nat} {m : HMap V} (hv : m.vals.length = m.keys.length) (l : List Nat)
    (hl : ∀ i ∈ l, i < m.keys.length) : ∀ (st st' : List Nat × List V), st.1.length = 2 ^ p →
      st.2.length = st.1.length → newMask = st.1.length - 1 → st.1.length ≤ F →
      (l.map fun i => (m.keys.getD i usizeMax, m.vals.getD i 0)).foldl (rehash newMask) (some st) = some st' →
      l.foldlM (rehashP F m newMask) st = .ok st' := by
  induction l with
  | nil => intro st st' _ _ _ _ h; cases h; rfl
  | cons i l ih =>
    intro st st' hp hs hm hF h
    have hi := hl i (by simp)
    have hiv : i < m.vals.length := by omega
    have hgk : m.keys.getD i usizeMax = m.keys[i] := List.getD_eq_getElem _ _ hi
    have hgv : m.vals.getD i 0 = m.vals[i] := List.getD_eq_getElem _ _ hiv
    have ih := ih (fun j hj => hl j (by simp [hj]))
    rw [List.map_cons, List.foldl_cons, hgk, hgv] at h
    rw [List.foldlM_cons]
    unfold rehashP
    rw [index_eq hi, ok_bind]
    unfold rehash at h
    simp only at h
    by_cases hmax : m.keys[i] = usizeMax
    · rw [if_pos hmax] at h
      rw [if_pos hmax]
      exact ih st st' hp hs hm hF h
    · rw [if_neg hmax] at h
      rw [if_neg hmax]
      cases hpf : probeFree st.1 newMask st.1.length (hash m.keys[i] &&& newMask) with
      | none => rw [hpf] at h; exact absurd ((rehash_none _ _).symm.trans h) (by simp)
      | some idx =>
        rw [hpf] at h
        obtain ⟨g1, g2⟩ := probeFreeP_of hp hm _ F _ idx hF (mask_lt hp hm) hpf
        have g3 : idx < st.2.length := by omega
        rw [g1, ok_bind]
        unfold storeIdx
        rw [if_pos g2, ok_bind, index_eq hiv, ok_bind, if_pos g3, ok_bind]
        exact ih (st.1.set idx m.keys[i], st.2.set idx m.vals[i]) st' (by simpa using hp) (by simpa using hs)
          (by simpa using hm) (by simpa using hF) h

theorem zip_eq_range [Zero V] {keys : List Nat} {vals : List V} (h : vals.length = keys.length) :
    keys.zip vals = (List.range keys.length).map fun i => (keys.getD i usizeMax, vals.getD i 0) := by
  apply List.ext_getElem
  · simp [h]
  · intro i h1 h2
    rw [List.length_zip] at h1
    rw [List.getElem_zip, List.getElem_map, List.getElem_range, List.getD_eq_getElem _ _ (by omega),
      List.getD_eq_getElem _ _ (by omega)]

theorem growP_of [Zero V] {dbg : Bool} {F : Nat} {m m' : HMap V} (hp : ∃ p, m.keys.length = 2 ^ p)
    (hv : m.vals.length = m.keys.length) (hF : m.keys.length * 2 ≤ F)
    (hmem : 16 * (m.keys.length : Int) ≤ i64Max) (h : m.grow = some m') : growP dbg F m = .ok m' := by
  obtain ⟨p, hp⟩ := hp
  have hpos : 0 < 2 ^ p := Nat.two_pow_pos p
  unfold grow at h
  simp only at h
  unfold growP
  rw [mulUsize_eq (by unfold i64Max at hmem; unfold usizeMax; omega), ok_bind]
  unfold withCapP
  rw [if_pos (by push_cast; omega), ok_bind, subUsize_eq (by omega), ok_bind]
  cases hf : (m.keys.zip m.vals).foldl (rehash (m.keys.length * 2 - 1))
      (some (List.replicate (m.keys.length * 2) usizeMax, List.replicate (m.keys.length * 2) 0)) with
  | none => rw [hf] at h; cases h
  | some st =>
    rw [hf] at h
    cases h
    rw [zip_eq_range hv] at hf
    rw [rehashP_fold (p := p + 1) hv _ (fun i hi => List.mem_range.1 hi) _ _ (by simp [hp, Nat.pow_succ]) (by simp)
      (by simp) (by simpa using hF) hf, ok_bind]
    rfl

/-- The table has its initial size `c` or is at most 20/7 of the number of its keys. -/
def Tight (c : Nat) (m : HMap V) : Prop := m.keys.length ≤ c ∨ 7 * m.keys.length ≤ 20 * m.len

theorem insertAddP_of [Zero V] [Add V] {dbg : Bool} {F c N : Nat} {m : HMap V} (h : Inv m) (hc : Tight c m)
    {key : Nat} (hkey : key ≠ usizeMax) (val : V) (hN : m.len + 1 ≤ N) (hF : c ≤ F) (hF' : 3 * N ≤ F)
    (hc8 : 8 * (c : Int) ≤ i64Max) (hN24 : 24 * (N : Int) ≤ i64Max) :
    ∃ m', insertAddP dbg F m key val = .ok m' ∧ m.insertAdd key val = some m' ∧ Inv m' ∧ Tight c m' ∧
      m'.len ≤ m.len + 1 := by
  obtain ⟨m', e1, e2, -, -⟩ := insertAdd_spec h hkey val
  refine ⟨m', ?_⟩
  obtain ⟨p, hp⟩ := h.pow
  have hle : m.keys.length ≤ F ∧ 8 * (m.keys.length : Int) ≤ i64Max := by
    rcases hc with h' | h' <;> constructor <;> omega
  unfold insertAdd at e1
  unfold insertAddP
  rw [if_neg (by simp [hkey])]
  cases hpr : probe m.keys m.mask key m.keys.length (hash key &&& m.mask) with
  | none => rw [hpr] at e1; cases e1
  | some idx =>
    rw [hpr] at e1
    simp only at e1
    obtain ⟨g1, g2⟩ := probeP_of hp h.mask _ F _ idx hle.1 (mask_lt hp h.mask) hpr
    have g3 : idx < m.vals.length := by rw [h.vlen]; exact g2
    rw [g1, ok_bind, getUnchecked_eq g2, ok_bind]
    have hg : m.keys.getD idx usizeMax = m.keys[idx] := List.getD_eq_getElem _ _ g2
    unfold insertAdd
    rw [hpr]
    simp only
    rw [hg] at e1 ⊢
    by_cases hmax : m.keys[idx] = usizeMax
    · rw [if_pos hmax] at e1 ⊢
      rw [if_pos hmax, setUnchecked_eq g2, ok_bind, setUnchecked_eq g3, ok_bind,
        addUsize_eq (by unfold i64Max at hN24; unfold usizeMax; omega), ok_bind,
        mulUsize_eq (by unfold i64Max at hN24; unfold usizeMax; omega), ok_bind,
        mulUsize_eq (by
          rw [List.length_set]; have := hle.2; unfold i64Max at this; unfold usizeMax; omega), ok_bind]
      by_cases hload : (m.len + 1) * 10 > (m.keys.set idx key).length * 7
      · rw [if_pos hload] at e1 ⊢
        have hload' := hload
        rw [List.length_set] at hload'
        obtain ⟨m2, k1, k2, k3, -⟩ := grow_spec
          (m := { m with keys := m.keys.set idx key, vals := m.vals.set idx val, len := m.len + 1 })
          ⟨p, by simpa using hp⟩ (by simpa using h.vlen) (by
            have := e2.kinv
            -- the key array before growing is the one of the specification
            obtain ⟨d0, hd0, hf0⟩ := exists_free_seq h.room (hash key)
            obtain ⟨d, -, q2, q3, q4, q5⟩ := probe_spec m.keys p key hp (hash key) m.keys.length 0
              ⟨d0, by omega, by omega, .inl hf0⟩
            rw [Nat.add_zero] at q3
            have hst : hash key &&& m.mask = hash key % m.keys.length := by rw [h.mask, hp, and_mask]
            have : (hash key + d) % m.keys.length = idx := by
              rw [hst, h.mask, hp] at hpr
              rw [hp] at q3
              rw [hpr] at q3
              rw [hp]; exact (Option.some.inj q3).symm
            rw [← this]
            refine h.kinv.insert (d := d) (by omega) (by unfold seqAt; rw [this, hg]; exact hmax)
              (fun e he => (q5 e (by omega) he).1) ?_
            intro i hi hik
            obtain ⟨d', k1, k2, k3⟩ := h.kinv.reach i hi (by rw [hik]; exact hkey)
            rw [hik] at k2 k3
            by_cases hlt : d' < d
            · have := (q5 d' (by omega) hlt).2
              unfold seqAt at this; rw [k2] at this; exact this hik
            · by_cases heq : d' = d
              · subst heq; rw [this] at k2; subst k2; rw [hg, hmax] at hik; exact hkey hik.symm
              · have h3 := k3 d (by omega)
                unfold seqAt at h3; rw [this, hg] at h3; exact h3 hmax) (by
            show used _ = m.len + 1
            rw [used_set g2 (by rw [hg]; exact hmax) hkey, h.len])
        have : m2 = m' := Option.some.inj (k1.symm.trans e1)
        subst this
        have hlen : m2.len = m.len + 1 := by
          have hh := k1
          unfold grow at hh
          simp only at hh
          split at hh
          · cases hh
          · cases hh; rfl
        rw [if_pos hload]
        refine ⟨?_, k1, k2, .inr ?_, by omega⟩
        · exact growP_of ⟨p, by simpa using hp⟩ (by simpa using h.vlen) (by simp only [List.length_set]; omega)
            (by simp only [List.length_set]; omega) e1
        · rw [k3, List.length_set, hlen]; omega
      · rw [if_neg hload] at e1 ⊢
        rw [if_neg hload]
        cases e1
        refine ⟨rfl, rfl, e2, ?_, by simp⟩
        unfold Tight at hc ⊢
        simp only [List.length_set]
        omega
    · rw [if_neg hmax] at e1 ⊢
      rw [if_neg hmax, getUnchecked_eq g3, ok_bind, setUnchecked_eq g3, ok_bind]
      have hgv : m.vals.getD idx 0 = m.vals[idx] := List.getD_eq_getElem _ _ g3
      rw [hgv] at e1 ⊢
      cases e1
      exact ⟨rfl, rfl, e2, hc, by simp⟩

theorem insertAllP_of [Zero V] [Add V] {dbg : Bool} {F c N : Nat} (ops : List (Nat × V)) : ∀ (m : HMap V), Inv m →
    Tight c m → (∀ o ∈ ops, o.1 ≠ usizeMax) → m.len + ops.length ≤ N → c ≤ F → 3 * N ≤ F →
    8 * (c : Int) ≤ i64Max → 24 * (N : Int) ≤ i64Max →
    ∃ m', insertAllP dbg F m ops = .ok m' ∧ m.insertAll ops = some m' ∧ Inv m' := by
  induction ops with
  | nil => intro m h _ _ _ _ _ _ _; exact ⟨m, rfl, rfl, h⟩
  | cons o ops ih =>
    intro m h hc hk hN hF hF' hc8 hN24
    rw [List.length_cons] at hN
    obtain ⟨m1, e1, e2, e3, e4, e5⟩ := insertAddP_of (dbg := dbg) h hc (hk o (by simp)) o.2 (N := N) (by omega) hF hF'
      hc8 hN24
    obtain ⟨m', f1, f2, f3⟩ := ih m1 e3 e4 (fun o ho => hk o (by simp [ho])) (by omega) hF hF' hc8 hN24
    refine ⟨m', ?_, ?_, f3⟩
    · unfold insertAllP at f1 ⊢
      rw [List.foldlM_cons, e1, ok_bind]; exact f1
    · show (m.insertAdd o.1 o.2).bind _ = _
      rw [e2]; exact f2

/-! ### Draining -/

theorem drainToP_cases [Zero V] [Add V] {m : HMap V} (hv : m.vals.length = m.keys.length) (l : List Nat)
    (hl : ∀ i ∈ l, i < m.keys.length) (n : Nat) : ∀ out : List V, out.length = n →
    l.foldlM (fun out i => do
      let k ← index m.keys i
      if k = usizeMax then pure out
      else
        let p ← getUnchecked out k
        let v ← index m.vals i
        setUnchecked out k (p + v)) out =
      if ∀ i ∈ l, m.keys.getD i usizeMax = usizeMax ∨ m.keys.getD i usizeMax < n then
        .ok ((l.map fun i => (m.keys.getD i usizeMax, m.vals.getD i 0)).foldl
          (fun o e => if e.1 ≠ usizeMax then o.set e.1 (o.getD e.1 0 + e.2) else o) out)
      else (.error .ub : Except Fault (List V)) := by
  induction l with
  | nil => intro out _; rw [if_pos (by simp)]; rfl
  | cons i l ih =>
    intro out hout
    have hi := hl i (by simp)
    have hiv : i < m.vals.length := by omega
    have hgk : m.keys.getD i usizeMax = m.keys[i] := List.getD_eq_getElem _ _ hi
    have hgv : m.vals.getD i 0 = m.vals[i] := List.getD_eq_getElem _ _ hiv
    have ih := ih (fun j hj => hl j (by simp [hj]))
    rw [List.foldlM_cons, index_eq hi, ok_bind, List.map_cons, List.foldl_cons]
    by_cases hmax : m.keys[i] = usizeMax
    · rw [if_pos hmax, show (pure out : Except Fault (List V)) = .ok out from rfl, ok_bind, ih out hout]
      have : (∀ j ∈ i :: l, m.keys.getD j usizeMax = usizeMax ∨ m.keys.getD j usizeMax < n) ↔
          ∀ j ∈ l, m.keys.getD j usizeMax = usizeMax ∨ m.keys.getD j usizeMax < n := by
        rw [List.forall_mem_cons, hgk]; exact and_iff_right (.inl hmax)
      simp only [this]
      rw [if_neg (c := (m.keys.getD i usizeMax, m.vals.getD i 0).1 ≠ usizeMax) (by simp only []; rw [hgk]; simpa using hmax)]
    · rw [if_neg hmax]
      by_cases hlt : m.keys[i] < n
      · have hlt' : m.keys[i] < out.length := by omega
        rw [getUnchecked_eq hlt', ok_bind, index_eq hiv, ok_bind, setUnchecked_eq hlt', ok_bind,
          ih _ (by simpa using hout)]
        have : (∀ j ∈ i :: l, m.keys.getD j usizeMax = usizeMax ∨ m.keys.getD j usizeMax < n) ↔
            ∀ j ∈ l, m.keys.getD j usizeMax = usizeMax ∨ m.keys.getD j usizeMax < n := by
          rw [List.forall_mem_cons, hgk]; exact and_iff_right (.inr hlt)
        simp only [this]
        rw [if_pos (c := (m.keys.getD i usizeMax, m.vals.getD i 0).1 ≠ usizeMax) (by simp only []; rw [hgk]; exact hmax)]
        rw [hgk, hgv, List.getD_eq_getElem _ _ hlt']
      · rw [if_neg (by
          intro hh
          rcases hh i (by simp) with h' | h' <;> rw [hgk] at h'
          · exact hmax h'
          · exact hlt h')]
        have : getUnchecked out m.keys[i] = .error .ub := by
          unfold getUnchecked; rw [List.getElem?_eq_none (by omega)]
        rw [this]; rfl

theorem drainToP_eq [Zero V] [Add V] {m : HMap V} (hv : m.vals.length = m.keys.length) (out : List V) :
    drainToP m out = if ∀ k ∈ m.keys, k = usizeMax ∨ k < out.length then .ok (m.drainTo out) else .error .ub := by
  unfold drainToP
  rw [drainToP_cases hv _ (fun i hi => List.mem_range.1 hi) out.length out rfl, ← zip_eq_range hv]
  have : (∀ i ∈ List.range m.keys.length, m.keys.getD i usizeMax = usizeMax ∨ m.keys.getD i usizeMax < out.length) ↔
      ∀ k ∈ m.keys, k = usizeMax ∨ k < out.length := by
    constructor
    · intro h k hk
      obtain ⟨i, hi, rfl⟩ := List.getElem_of_mem hk
      have := h i (List.mem_range.2 hi)
      rwa [List.getD_eq_getElem _ _ hi] at this
    · intro h i hi
      have hi := List.mem_range.1 hi
      rw [List.getD_eq_getElem _ _ hi]
      exact h _ (List.getElem_mem hi)
  simp only [this]
  rfl

theorem drainTo_length [Zero V] [Add V] (m : HMap V) (out : List V) : (m.drainTo out).length = out.length := by
  unfold drainTo
  generalize m.keys.zip m.vals = l
  induction l generalizing out with
  | nil => rfl
  | cons e l ih =>
    rw [List.foldl_cons, ih]
    split <;> simp

/-- Draining several maps. -/
theorem drains_eq [Zero V] [Add V] (ms : List (HMap V)) (hv : ∀ m ∈ ms, m.vals.length = m.keys.length) :
    ∀ y : List V, ms.foldlM (fun y m => m.drainToP y) y =
      if ∀ m ∈ ms, ∀ k ∈ m.keys, k = usizeMax ∨ k < y.length then .ok (ms.foldl (fun y m => m.drainTo y) y)
      else (.error .ub : Except Fault (List V)) := by
  induction ms with
  | nil => intro y; rw [if_pos (by simp)]; rfl
  | cons m ms ih =>
    intro y
    rw [List.foldlM_cons, drainToP_eq (hv m (by simp))]
    by_cases h : ∀ k ∈ m.keys, k = usizeMax ∨ k < y.length
    · rw [if_pos h, ok_bind, ih (fun m hm => hv m (by simp [hm])), drainTo_length]
      have : (∀ m' ∈ m :: ms, ∀ k ∈ m'.keys, k = usizeMax ∨ k < y.length) ↔
          ∀ m' ∈ ms, ∀ k ∈ m'.keys, k = usizeMax ∨ k < y.length := by
        rw [List.forall_mem_cons]; exact and_iff_right h
      simp only [this]
      rfl
    · rw [if_neg h, if_neg (fun hh => h (hh m (by simp)))]; rfl

end HMap
end Lacuna
