import Verif.Model.HashMap
import Mathlib.Data.List.GetD
import Mathlib.Tactic.ByContra
namespace Lacuna
universe u
variable {V : Type u}
namespace HMap

/-! ### Probing -/

theorem and_mask (p x : Nat) : x &&& (2 ^ p - 1) = x % 2 ^ p := Nat.and_two_pow_sub_one_eq_mod x p

/-- Slot `d` of the probe sequence that starts at `h`. -/
def seqAt (keys : List Nat) (h d : Nat) : Nat := keys.getD ((h + d) % keys.length) usizeMax

theorem probe_spec (keys : List Nat) (p key : Nat) (hl : keys.length = 2 ^ p) (h fuel : Nat) (s : Nat)
    (hex : ∃ d, s ≤ d ∧ d < s + fuel ∧ (seqAt keys h d = usizeMax ∨ seqAt keys h d = key)) :
    ∃ d, s ≤ d ∧ d < s + fuel ∧
      probe keys (2 ^ p - 1) key fuel ((h + s) % keys.length) = some ((h + d) % keys.length) ∧
      (seqAt keys h d = usizeMax ∨ seqAt keys h d = key) ∧
      ∀ e, s ≤ e → e < d → seqAt keys h e ≠ usizeMax ∧ seqAt keys h e ≠ key := by
  induction fuel generalizing s with
  | zero => obtain ⟨d, h1, h2, _⟩ := hex; omega
  | succ fuel ih =>
    unfold probe
    simp only
    by_cases h1 : seqAt keys h s = usizeMax
    · refine ⟨s, Nat.le_refl _, by omega, ?_, .inl h1, fun e _ _ => by omega⟩
      unfold seqAt at h1; rw [if_pos h1]
    · by_cases h2 : seqAt keys h s = key
      · refine ⟨s, Nat.le_refl _, by omega, ?_, .inr h2, fun e _ _ => by omega⟩
        unfold seqAt at h1 h2; rw [if_neg h1, if_pos h2]
      · have hnext : (((h + s) % keys.length + 1) &&& (2 ^ p - 1)) = (h + (s + 1)) % keys.length := by
          rw [and_mask, ← hl, ← Nat.add_assoc, Nat.mod_add_mod]
        obtain ⟨d, g1, g2, g3⟩ := hex
        have hd : d ≠ s := by rintro rfl; exact g3.elim h1 h2
        obtain ⟨d', k1, k2, k3, k4, k5⟩ := ih (s + 1) ⟨d, by omega, by omega, g3⟩
        refine ⟨d', by omega, by omega, ?_, k4, fun e he1 he2 => ?_⟩
        · unfold seqAt at h1 h2; rw [if_neg h1, if_neg h2, hnext]; exact k3
        · by_cases hes : e = s
          · subst hes; exact ⟨h1, h2⟩
          · exact k5 e (by omega) he2

theorem probeFree_spec (keys : List Nat) (p : Nat) (hl : keys.length = 2 ^ p) (h fuel : Nat) (s : Nat)
    (hex : ∃ d, s ≤ d ∧ d < s + fuel ∧ seqAt keys h d = usizeMax) :
    ∃ d, s ≤ d ∧ d < s + fuel ∧
      probeFree keys (2 ^ p - 1) fuel ((h + s) % keys.length) = some ((h + d) % keys.length) ∧
      seqAt keys h d = usizeMax ∧
      ∀ e, s ≤ e → e < d → seqAt keys h e ≠ usizeMax := by
  induction fuel generalizing s with
  | zero => obtain ⟨d, h1, h2, _⟩ := hex; omega
  | succ fuel ih =>
    unfold probeFree
    by_cases h1 : seqAt keys h s = usizeMax
    · refine ⟨s, Nat.le_refl _, by omega, ?_, h1, fun e _ _ => by omega⟩
      unfold seqAt at h1; rw [if_pos h1]
    · have hnext : (((h + s) % keys.length + 1) &&& (2 ^ p - 1)) = (h + (s + 1)) % keys.length := by
        rw [and_mask, ← hl, ← Nat.add_assoc, Nat.mod_add_mod]
      obtain ⟨d, g1, g2, g3⟩ := hex
      have hd : d ≠ s := by rintro rfl; exact h1 g3
      obtain ⟨d', k1, k2, k3, k4, k5⟩ := ih (s + 1) ⟨d, by omega, by omega, g3⟩
      refine ⟨d', by omega, by omega, ?_, k4, fun e he1 he2 => ?_⟩
      · unfold seqAt at h1; rw [if_neg h1, hnext]; exact k3
      · by_cases hes : e = s
        · subst hes; exact h1
        · exact k5 e (by omega) he2

/-- Every slot lies on every probe sequence within one round. -/
theorem seq_covers {cap : Nat} (h i : Nat) (hi : i < cap) : ∃ d, d < cap ∧ (h + d) % cap = i := by
  have hh : h % cap < cap := Nat.mod_lt _ (by omega)
  by_cases hle : h % cap ≤ i
  · refine ⟨i - h % cap, by omega, ?_⟩
    rw [← Nat.mod_add_mod, Nat.add_sub_cancel' hle, Nat.mod_eq_of_lt hi]
  · refine ⟨cap + i - h % cap, by omega, ?_⟩
    rw [← Nat.mod_add_mod, Nat.add_sub_cancel' (by omega), Nat.add_mod_left, Nat.mod_eq_of_lt hi]

/-! ### Invariant of the key array -/

/-- Number of used slots. -/
def used (keys : List Nat) : Nat := keys.countP (fun k => k ≠ usizeMax)

/-- The key array is a valid linear-probing table. -/
structure KInv (keys : List Nat) : Prop where
  inj : ∀ i j, i < keys.length → j < keys.length → keys.getD i usizeMax ≠ usizeMax →
    keys.getD i usizeMax = keys.getD j usizeMax → i = j
  reach : ∀ i, i < keys.length → keys.getD i usizeMax ≠ usizeMax →
    ∃ d, d < keys.length ∧ (hash (keys.getD i usizeMax) + d) % keys.length = i ∧
      ∀ e, e < d → seqAt keys (hash (keys.getD i usizeMax)) e ≠ usizeMax

theorem exists_free {keys : List Nat} (h : used keys < keys.length) :
    ∃ i, i < keys.length ∧ keys.getD i usizeMax = usizeMax := by
  by_contra hn
  have : ∀ k ∈ keys, k ≠ usizeMax := by
    intro k hk hk0
    obtain ⟨i, hi, rfl⟩ := List.getElem_of_mem hk
    exact hn ⟨i, hi, by simpa [List.getD_eq_getElem?_getD, hi] using hk0⟩
  have h2 : used keys = keys.length := by
    unfold used
    rw [List.countP_eq_length]
    intro k hk; simpa using this k hk
  omega

theorem exists_free_seq {keys : List Nat} (h : used keys < keys.length) (s : Nat) :
    ∃ d, d < keys.length ∧ seqAt keys s d = usizeMax := by
  obtain ⟨i, hi, h0⟩ := exists_free h
  obtain ⟨d, hd, hdi⟩ := seq_covers s i hi
  exact ⟨d, hd, by unfold seqAt; rw [hdi]; exact h0⟩

theorem getD_set (l : List α) (i j : Nat) (x d : α) :
    (l.set i x).getD j d = if i = j ∧ j < l.length then x else l.getD j d := by
  simp only [List.getD_eq_getElem?_getD, List.getElem?_set]
  by_cases h : i = j
  · subst h
    by_cases h2 : i < l.length
    · simp [h2]
    · simp [h2]
  · simp [h]

theorem used_set {keys : List Nat} {i k : Nat} (hi : i < keys.length)
    (h0 : keys.getD i usizeMax = usizeMax) (hk : k ≠ usizeMax) :
    used (keys.set i k) = used keys + 1 := by
  unfold used
  induction keys generalizing i with
  | nil => simp at hi
  | cons x keys ih =>
    cases i with
    | zero =>
      have : x = usizeMax := by simpa using h0
      subst this
      simp [hk]
    | succ i =>
      have := ih (i := i) (by simpa using hi) (by simpa using h0)
      rw [List.set_cons_succ, List.countP_cons, List.countP_cons, this]
      omega

/-- Storing an absent key in the first free slot of its probe sequence keeps the invariant. -/
theorem KInv.insert {keys : List Nat} (h : KInv keys) {key d : Nat}
    (hd : d < keys.length) (hfree : seqAt keys (hash key) d = usizeMax)
    (hbefore : ∀ e, e < d → seqAt keys (hash key) e ≠ usizeMax)
    (habs : ∀ i, i < keys.length → keys.getD i usizeMax ≠ key) :
    KInv (keys.set ((hash key + d) % keys.length) key) := by
  have hpos : 0 < keys.length := by omega
  have hidx : (hash key + d) % keys.length < keys.length := Nat.mod_lt _ hpos
  -- occupied slots stay occupied
  have occ : ∀ x, x < keys.length → keys.getD x usizeMax ≠ usizeMax →
      (keys.set ((hash key + d) % keys.length) key).getD x usizeMax = keys.getD x usizeMax := by
    intro x hx hxo
    rw [getD_set]
    rw [if_neg]
    rintro ⟨rfl, _⟩
    exact hxo hfree
  have occ' : ∀ s e, seqAt keys s e ≠ usizeMax →
      seqAt (keys.set ((hash key + d) % keys.length) key) s e ≠ usizeMax := by
    intro s e he
    unfold seqAt at *
    rw [List.length_set, occ _ (Nat.mod_lt _ hpos) he]; exact he
  constructor
  · intro i j hi hj
    rw [List.length_set] at hi hj
    rw [getD_set, getD_set]
    intro h1 h2
    by_cases ci : (hash key + d) % keys.length = i
    · rw [if_pos ⟨ci, hi⟩] at h1 h2
      by_cases cj : (hash key + d) % keys.length = j
      · omega
      · rw [if_neg (fun hh => cj hh.1)] at h2
        exact absurd h2.symm (habs j hj)
    · rw [if_neg (fun hh => ci hh.1)] at h1 h2
      by_cases cj : (hash key + d) % keys.length = j
      · rw [if_pos ⟨cj, hj⟩] at h2
        exact absurd h2 (habs i hi)
      · rw [if_neg (fun hh => cj hh.1)] at h2
        exact h.inj i j hi hj h1 h2
  · intro i hi
    rw [List.length_set] at hi ⊢
    intro h1
    by_cases ci : (hash key + d) % keys.length = i
    · have e1 : (keys.set ((hash key + d) % keys.length) key).getD i usizeMax = key := by
        rw [getD_set, if_pos ⟨ci, hi⟩]
      rw [e1]
      exact ⟨d, hd, ci, fun e he => occ' _ _ (hbefore e he)⟩
    · have e1 : (keys.set ((hash key + d) % keys.length) key).getD i usizeMax = keys.getD i usizeMax := by
        rw [getD_set, if_neg (fun hh => ci hh.1)]
      rw [e1] at h1 ⊢
      obtain ⟨d', g1, g2, g3⟩ := h.reach i hi h1
      exact ⟨d', g1, g2, fun e he => occ' _ _ (g3 e he)⟩

theorem kinv_replicate (n : Nat) : KInv (List.replicate n usizeMax) := by
  have : ∀ i, (List.replicate n usizeMax).getD i usizeMax = usizeMax := by
    intro i; simp [List.getD_eq_getElem?_getD, List.getElem?_replicate]; split <;> rfl
  constructor
  · intro i j _ _ h; exact absurd (this i) h
  · intro i _ h; exact absurd (this i) h

theorem used_replicate (n : Nat) : used (List.replicate n usizeMax) = 0 := by
  simp [used]

/-! ### Content -/

/-- `(k, v)` is stored in some slot. -/
def Has (keys : List Nat) (vals : List V) (k : Nat) (v : V) : Prop :=
  ∃ i, i < keys.length ∧ keys.getD i usizeMax = k ∧ vals[i]? = some v

theorem mem_zip_iff {keys : List Nat} {vals : List V} (k : Nat) (v : V)
    (_hl : vals.length = keys.length) :
    (k, v) ∈ keys.zip vals ↔ Has keys vals k v := by
  unfold Has
  constructor
  · intro h
    obtain ⟨i, hi, he⟩ := List.getElem_of_mem h
    rw [List.getElem_zip] at he
    have hi' := hi
    rw [List.length_zip] at hi'
    have h1 : i < keys.length := by omega
    have h2 : i < vals.length := by omega
    simp only [Prod.mk.injEq] at he
    exact ⟨i, h1, by simpa [List.getD_eq_getElem?_getD, h1] using he.1,
      by rw [List.getElem?_eq_getElem h2, he.2]⟩
  · rintro ⟨i, hi, h1, h2⟩
    have hv : i < vals.length := by
      by_contra hn; rw [List.getElem?_eq_none (by omega)] at h2; cases h2
    rw [List.getElem?_eq_getElem hv] at h2
    have h1' : keys[i] = k := by simpa [List.getD_eq_getElem?_getD, hi] using h1
    have : (keys.zip vals)[i]'(by rw [List.length_zip]; omega) = (k, v) := by
      rw [List.getElem_zip, h1']
      simp only [Option.some.injEq] at h2; rw [h2]
    rw [← this]; exact List.getElem_mem _

theorem has_set {keys : List Nat} {vals : List V} {idx k0 : Nat} {v0 : V}
    (hl : vals.length = keys.length) (hi : idx < keys.length)
    (h0 : keys.getD idx usizeMax = usizeMax) {k : Nat} (hk : k ≠ usizeMax) (v : V) :
    Has (keys.set idx k0) (vals.set idx v0) k v ↔ (k = k0 ∧ v = v0) ∨ Has keys vals k v := by
  unfold Has
  constructor
  · rintro ⟨i, hi', h1, h2⟩
    rw [List.length_set] at hi'
    by_cases c : idx = i
    · subst c
      rw [getD_set, if_pos ⟨rfl, hi⟩] at h1
      rw [List.getElem?_set_self (by omega)] at h2
      left; exact ⟨h1.symm, by simpa using h2.symm⟩
    · rw [getD_set, if_neg (fun hh => c hh.1)] at h1
      rw [List.getElem?_set_ne c] at h2
      right; exact ⟨i, hi', h1, h2⟩
  · rintro (⟨rfl, rfl⟩ | ⟨i, hi', h1, h2⟩)
    · refine ⟨idx, by simpa using hi, ?_, ?_⟩
      · rw [getD_set, if_pos ⟨rfl, hi⟩]
      · rw [List.getElem?_set_self (by omega)]
    · have c : idx ≠ i := by rintro rfl; exact hk (h1.symm.trans h0)
      refine ⟨i, by simpa using hi', ?_, ?_⟩
      · rw [getD_set, if_neg (fun hh => c hh.1)]; exact h1
      · rw [List.getElem?_set_ne c]; exact h2

/-- The rehash loop of `grow`. -/
theorem rehash_fold (p : Nat) (L : List (Nat × V)) (keys : List Nat) (vals : List V)
    (hl : keys.length = 2 ^ p) (hv : vals.length = keys.length) (hk : KInv keys)
    (hroom : used keys + L.length < keys.length)
    (hdist : L.Pairwise (fun a b => a.1 ≠ usizeMax → a.1 ≠ b.1))
    (habs : ∀ e ∈ L, e.1 ≠ usizeMax → ∀ i, i < keys.length → keys.getD i usizeMax ≠ e.1) :
    ∃ keys' vals', L.foldl (rehash (2 ^ p - 1)) (some (keys, vals)) = some (keys', vals') ∧
      keys'.length = keys.length ∧ vals'.length = keys.length ∧ KInv keys' ∧
      used keys' = used keys + used (L.map Prod.fst) ∧
      ∀ k, k ≠ usizeMax → ∀ v, Has keys' vals' k v ↔ Has keys vals k v ∨ (k, v) ∈ L := by
  induction L generalizing keys vals with
  | nil => exact ⟨keys, vals, rfl, rfl, hv, hk, by simp [used], by simp⟩
  | cons e L ih =>
    obtain ⟨k0, v0⟩ := e
    rw [List.pairwise_cons] at hdist
    rw [List.foldl_cons]
    by_cases hmax : k0 = usizeMax
    · obtain ⟨keys', vals', h1, h2, h3, h4, h5, h6⟩ := ih keys vals hl hv hk
        (by simp at hroom; omega) hdist.2 (fun e he => habs e (by simp [he]))
      refine ⟨keys', vals', ?_, h2, h3, h4, ?_, ?_⟩
      · have hstep : rehash (2 ^ p - 1) (some (keys, vals)) (k0, v0) = some (keys, vals) := by
          unfold rehash; simp only; rw [if_pos hmax]
        rw [hstep]; exact h1
      · rw [h5]; simp [used, hmax]
      · intro k hk v; rw [h6 k hk v]
        constructor
        · rintro (h | h)
          · exact .inl h
          · exact .inr (by simp [h])
        · rintro (h | h)
          · exact .inl h
          · right
            rcases List.mem_cons.1 h with h | h
            · simp only [Prod.mk.injEq] at h; exact absurd (h.1.trans hmax) hk
            · exact h
    · have hroom' : used keys < keys.length := by omega
      obtain ⟨d0, hd0, hf0⟩ := exists_free_seq hroom' (hash k0)
      obtain ⟨d, -, g2, g3, g4, g5⟩ := probeFree_spec keys p hl (hash k0) keys.length 0
        ⟨d0, by omega, by omega, hf0⟩
      rw [Nat.add_zero] at g3
      have hst : hash k0 &&& (2 ^ p - 1) = hash k0 % keys.length := by rw [and_mask, hl]
      have hidx : (hash k0 + d) % keys.length < keys.length := Nat.mod_lt _ (by omega)
      have habs0 := habs (k0, v0) (by simp) hmax
      have hk' := hk.insert (key := k0) (d := d) (by omega) g4 (fun e he => g5 e (by omega) he) habs0
      have hused := used_set hidx (by unfold seqAt at g4; exact g4) hmax
      have hstep : rehash (2 ^ p - 1) (some (keys, vals)) (k0, v0)
          = some (keys.set ((hash k0 + d) % keys.length) k0, vals.set ((hash k0 + d) % keys.length) v0) := by
        unfold rehash
        simp only
        rw [if_neg hmax, hst, g3]
      rw [hstep]
      obtain ⟨keys', vals', h1, h2, h3, h4, h5, h6⟩ := ih
        (keys.set ((hash k0 + d) % keys.length) k0) (vals.set ((hash k0 + d) % keys.length) v0)
        (by simpa using hl) (by simpa using hv) hk'
        (by rw [hused, List.length_set]; simp at hroom; omega) hdist.2
        (by
          intro e he hemax i hi
          rw [List.length_set] at hi
          rw [getD_set]
          split
          · exact hdist.1 e he hmax
          · exact habs e (by simp [he]) hemax i hi)
      refine ⟨keys', vals', h1, by simpa using h2, by simpa using h3, h4, ?_, ?_⟩
      · rw [h5, hused]; simp [used, hmax]; omega
      · intro k hk v
        rw [h6 k hk v, has_set hv hidx g4 hk]
        simp only [List.mem_cons, Prod.mk.injEq]
        constructor
        · rintro ((h | h) | h)
          · exact .inr (.inl h)
          · exact .inl h
          · exact .inr (.inr h)
        · rintro (h | h | h)
          · exact .inl (.inr h)
          · exact .inl (.inl h)
          · exact .inr h

/-! ### Invariant of the whole map -/

structure Inv (m : HMap V) : Prop where
  pow : ∃ p, m.keys.length = 2 ^ p
  vlen : m.vals.length = m.keys.length
  mask : m.mask = m.keys.length - 1
  kinv : KInv m.keys
  len : used m.keys = m.len
  load : m.len * 10 ≤ m.keys.length * 7

theorem Inv.room {m : HMap V} (h : Inv m) : used m.keys < m.keys.length := by
  have h1 := h.len; have h2 := h.load
  obtain ⟨p, hp⟩ := h.pow
  have : 0 < 2 ^ p := Nat.two_pow_pos p
  omega

theorem KInv.pairwise {keys : List Nat} (h : KInv keys) (vals : List V) :
    (keys.zip vals).Pairwise (fun a b => a.1 ≠ usizeMax → a.1 ≠ b.1) := by
  rw [List.pairwise_iff_getElem]
  intro i j hi hj hij
  rw [List.getElem_zip, List.getElem_zip]
  intro h1 h2
  rw [List.length_zip] at hi hj
  have hi' : i < keys.length := by omega
  have hj' : j < keys.length := by omega
  have := h.inj i j hi' hj' (by simpa [List.getD_eq_getElem?_getD, hi'] using h1)
    (by simpa [List.getD_eq_getElem?_getD, hi', hj'] using h2)
  omega

/-- `grow` terminates, keeps the content and re-establishes the invariant. -/
theorem grow_spec [Zero V] {m : HMap V} (hp : ∃ p, m.keys.length = 2 ^ p)
    (hv : m.vals.length = m.keys.length) (hk : KInv m.keys) (hlen : used m.keys = m.len) :
    ∃ m', m.grow = some m' ∧ Inv m' ∧ m'.keys.length = 2 * m.keys.length ∧
      ∀ k, k ≠ usizeMax → ∀ v, Has m'.keys m'.vals k v ↔ Has m.keys m.vals k v := by
  obtain ⟨p, hp⟩ := hp
  have hpos : 0 < 2 ^ p := Nat.two_pow_pos p
  have hcap : m.keys.length * 2 = 2 ^ (p + 1) := by rw [hp, Nat.pow_succ]
  have huse : used m.keys ≤ m.keys.length := List.countP_le_length
  have hgetR : ∀ i, (List.replicate (m.keys.length * 2) usizeMax).getD i usizeMax = usizeMax := by
    intro i; simp [List.getD_eq_getElem?_getD, List.getElem?_replicate]; split <;> rfl
  obtain ⟨keys', vals', h1, h2, h3, h4, h5, h6⟩ := rehash_fold (p + 1) (m.keys.zip m.vals)
    (List.replicate (m.keys.length * 2) usizeMax) (List.replicate (m.keys.length * 2) (0 : V))
    (by simp [hcap]) (by simp) (kinv_replicate _)
    (by rw [used_replicate]; simp [hv]; omega) (hk.pairwise _)
    (by intro e he hne i hi; rw [hgetR i]; exact fun h => hne h.symm)
  have hfst : (m.keys.zip m.vals).map Prod.fst = m.keys := List.map_fst_zip (by omega)
  rw [hfst, used_replicate, Nat.zero_add] at h5
  rw [List.length_replicate] at h2 h3
  refine ⟨⟨keys', vals', m.keys.length * 2 - 1, m.len⟩, ?_, ?_, ?_, ?_⟩
  · unfold grow; simp only; rw [show m.keys.length * 2 - 1 = 2 ^ (p + 1) - 1 by omega, h1]
  · refine ⟨⟨p + 1, by simp only; omega⟩, by simp only; omega, by simp only; omega, h4, by simp only; omega, ?_⟩
    simp only; omega
  · simp only; omega
  · intro k hk v
    rw [h6 k hk v, mem_zip_iff k v hv]
    constructor
    · rintro (⟨i, _, h, _⟩ | h)
      · rw [hgetR i] at h; exact absurd h.symm hk
      · exact h
    · exact .inr

/-- One `insert_add`. -/
theorem insertAdd_spec [Zero V] [Add V] {m : HMap V} (h : Inv m) {key : Nat} (hkey : key ≠ usizeMax)
    (val : V) :
    ∃ m', m.insertAdd key val = some m' ∧ Inv m' ∧
      (∀ k, k ≠ usizeMax → k ≠ key → ∀ v, Has m'.keys m'.vals k v ↔ Has m.keys m.vals k v) ∧
      (∀ v, Has m'.keys m'.vals key v ↔
        (∃ s, Has m.keys m.vals key s ∧ v = s + val) ∨ ((∀ s, ¬ Has m.keys m.vals key s) ∧ v = val)) := by
  obtain ⟨p, hp⟩ := h.pow
  have hpos : 0 < 2 ^ p := Nat.two_pow_pos p
  obtain ⟨d0, hd0, hf0⟩ := exists_free_seq h.room (hash key)
  obtain ⟨d, -, g2, g3, g4, g5⟩ := probe_spec m.keys p key hp (hash key) m.keys.length 0
    ⟨d0, by omega, by omega, .inl hf0⟩
  rw [Nat.add_zero] at g3
  have hst : hash key &&& m.mask = hash key % m.keys.length := by rw [h.mask, hp, and_mask]
  have hidx : (hash key + d) % m.keys.length < m.keys.length := Nat.mod_lt _ (by omega)
  have hprobe : probe m.keys m.mask key m.keys.length (hash key &&& m.mask)
      = some ((hash key + d) % m.keys.length) := by
    rw [hst, h.mask, hp]; rw [hp] at g3; exact g3
  generalize hI : (hash key + d) % m.keys.length = idx at *
  have g4' : m.keys.getD idx usizeMax = usizeMax ∨ m.keys.getD idx usizeMax = key := by
    unfold seqAt at g4; rw [hI] at g4; exact g4
  unfold insertAdd
  rw [hprobe]
  simp only
  by_cases hmax : m.keys.getD idx usizeMax = usizeMax
  · -- a free slot: the key is absent
    have habs : ∀ i, i < m.keys.length → m.keys.getD i usizeMax ≠ key := by
      intro i hi hik
      obtain ⟨d', k1, k2, k3⟩ := h.kinv.reach i hi (by rw [hik]; exact hkey)
      rw [hik] at k2 k3
      by_cases hlt : d' < d
      · have := (g5 d' (by omega) hlt).2
        unfold seqAt at this; rw [k2] at this; exact this hik
      · by_cases heq : d' = d
        · subst heq; rw [hI] at k2; subst k2; rw [hmax] at hik; exact hkey hik.symm
        · have := k3 d (by omega)
          unfold seqAt at this; rw [hI] at this; exact this hmax
    have hnone : ∀ s, ¬ Has m.keys m.vals key s := by
      rintro s ⟨i, hi, hik, _⟩; exact habs i hi hik
    rw [if_pos hmax]
    have hk' : KInv (m.keys.set idx key) := by
      rw [← hI]
      exact h.kinv.insert (key := key) (d := d) (by omega)
        (by unfold seqAt; rw [hI]; exact hmax) (fun e he => (g5 e (by omega) he).1) habs
    have hused := used_set hidx hmax hkey
    have hcontent : ∀ k, k ≠ usizeMax → ∀ v,
        Has (m.keys.set idx key) (m.vals.set idx val) k v ↔ (k = key ∧ v = val) ∨ Has m.keys m.vals k v :=
      fun k hk v => has_set h.vlen hidx hmax hk v
    split
    · obtain ⟨m', e1, e2, e3, e4⟩ := grow_spec
        (m := { m with keys := m.keys.set idx key, vals := m.vals.set idx val, len := m.len + 1 })
        ⟨p, by simpa using hp⟩ (by simpa using h.vlen) hk' (by simp only; rw [hused, h.len])
      refine ⟨m', e1, e2, fun k hk hne v => ?_, fun v => ?_⟩
      · rw [e4 k hk v, hcontent k hk v]
        exact ⟨fun hh => hh.elim (fun h => absurd h.1 hne) id, .inr⟩
      · rw [e4 key hkey v, hcontent key hkey v]
        constructor
        · rintro (hh | hh)
          · exact .inr ⟨hnone, hh.2⟩
          · exact absurd hh (hnone v)
        · rintro (⟨s, hs, _⟩ | ⟨_, rfl⟩)
          · exact absurd hs (hnone s)
          · exact .inl ⟨rfl, rfl⟩
    · rename_i hload
      refine ⟨_, rfl, ⟨⟨p, by simpa using hp⟩, by simpa using h.vlen, by simpa using h.mask, hk',
        by simp only; rw [hused, h.len], by simp only [List.length_set] at *; omega⟩,
        fun k hk hne v => ?_, fun v => ?_⟩
      · rw [hcontent k hk v]
        exact ⟨fun hh => hh.elim (fun h => absurd h.1 hne) id, .inr⟩
      · rw [hcontent key hkey v]
        constructor
        · rintro (hh | hh)
          · exact .inr ⟨hnone, hh.2⟩
          · exact absurd hh (hnone v)
        · rintro (⟨s, hs, _⟩ | ⟨_, rfl⟩)
          · exact absurd hs (hnone s)
          · exact .inl ⟨rfl, rfl⟩
  · -- the slot holds the key
    have hik : m.keys.getD idx usizeMax = key := g4'.resolve_left hmax
    rw [if_neg hmax]
    have hvl : idx < m.vals.length := by have := h.vlen; omega
    refine ⟨_, rfl, ⟨h.pow, by simpa using h.vlen, h.mask, h.kinv, h.len, h.load⟩,
      fun k hk hne v => ?_, fun v => ?_⟩
    · unfold Has
      simp only
      constructor
      · rintro ⟨i, hi, h1, h2⟩
        have c : idx ≠ i := by rintro rfl; exact hne (h1.symm.trans hik)
        rw [List.getElem?_set_ne c] at h2
        exact ⟨i, hi, h1, h2⟩
      · rintro ⟨i, hi, h1, h2⟩
        have c : idx ≠ i := by rintro rfl; exact hne (h1.symm.trans hik)
        exact ⟨i, hi, h1, by rw [List.getElem?_set_ne c]; exact h2⟩
    · have huniq : ∀ i, i < m.keys.length → m.keys.getD i usizeMax = key → i = idx := by
        intro i hi h1
        exact h.kinv.inj i idx hi hidx (by rw [h1]; exact hkey) (by rw [h1, hik])
      have hs : Has m.keys m.vals key m.vals[idx] := ⟨idx, hidx, hik, List.getElem?_eq_getElem hvl⟩
      have hgd : m.vals.getD idx 0 = m.vals[idx] := by simp [List.getD_eq_getElem?_getD, hvl]
      constructor
      · rintro ⟨i, hi, h1, h2⟩
        have := huniq i hi h1
        subst this
        rw [List.getElem?_set_self hvl] at h2
        left
        exact ⟨_, hs, by rw [← hgd]; simpa using h2.symm⟩
      · rintro (⟨s, ⟨i, hi, h1, h2⟩, rfl⟩ | ⟨hn, _⟩)
        · have := huniq i hi h1
          subst this
          rw [List.getElem?_eq_getElem hvl] at h2
          refine ⟨i, hi, h1, ?_⟩
          simp only [Option.some.injEq] at h2
          rw [List.getElem?_set_self hvl, hgd, h2]
        · exact absurd hs (hn _)

end HMap
end Lacuna
