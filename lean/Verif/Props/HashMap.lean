import Verif.Lemmas.HashMap
import Verif.Spec.Nd
/-
C18: the accumulating hash map behaves like a finite map.
-/
namespace Lacuna
universe u
variable {V : Type u}
namespace HMap

theorem total_append [Add V] (ops : List (Nat × V)) (k0 : Nat) (v0 : V) (k : Nat) :
    total (ops ++ [(k0, v0)]) k =
      if k = k0 then some (match total ops k with | none => v0 | some s => s + v0) else total ops k := by
  unfold total
  rw [List.filter_append, List.map_append]
  by_cases h : k = k0
  · subst h
    simp only [if_true, List.filter_cons, beq_self_eq_true, List.filter_nil, List.map_cons, List.map_nil]
    cases (ops.filter fun e => e.1 == k).map Prod.snd with
    | nil => rfl
    | cons v vs => simp [List.foldl_append]
  · rw [if_neg h]
    have : ((k0, v0).1 == k) = false := by simpa using fun e => h e.symm
    simp [this]

theorem insertAll_spec [Zero V] [Add V] (new : List (Nat × V)) (hnew : ∀ e ∈ new, e.1 < usizeMax)
    (m : HMap V) (ops : List (Nat × V)) (h : Inv m)
    (hr : ∀ k, k ≠ usizeMax → ∀ v, Has m.keys m.vals k v ↔ total ops k = some v) :
    ∃ m', m.insertAll new = some m' ∧ Inv m' ∧
      ∀ k, k ≠ usizeMax → ∀ v, Has m'.keys m'.vals k v ↔ total (ops ++ new) k = some v := by
  induction new generalizing m ops with
  | nil => exact ⟨m, rfl, h, by simpa using hr⟩
  | cons e new ih =>
    obtain ⟨k0, v0⟩ := e
    have hk0 : k0 ≠ usizeMax := by have := hnew (k0, v0) (by simp); simp at this; omega
    obtain ⟨m1, e1, e2, e3, e4⟩ := insertAdd_spec h hk0 v0
    obtain ⟨m', f1, f2, f3⟩ := ih (fun e he => hnew e (by simp [he])) m1 (ops ++ [(k0, v0)]) e2 (by
      intro k hk v
      rw [total_append]
      by_cases hkk : k = k0
      · subst hkk
        rw [if_pos rfl, e4 v]
        cases ht : total ops k with
        | none =>
          have hno : ∀ s, ¬ Has m.keys m.vals k s := by
            intro s hs; rw [hr k hk s, ht] at hs; cases hs
          simp only [Option.some.injEq]
          constructor
          · rintro (⟨s, hs, _⟩ | ⟨_, rfl⟩)
            · exact absurd hs (hno s)
            · rfl
          · rintro rfl; exact .inr ⟨hno, rfl⟩
        | some s =>
          have hs := (hr k hk s).2 ht
          simp only [Option.some.injEq]
          constructor
          · rintro (⟨s', hs', rfl⟩ | ⟨hn, _⟩)
            · rw [hr k hk s', ht] at hs'
              simp only [Option.some.injEq] at hs'; rw [hs']
            · exact absurd hs (hn s)
          · rintro rfl; exact .inl ⟨s, hs, rfl⟩
      · rw [if_neg hkk, e3 k hk hkk v, hr k hk v])
    refine ⟨m', ?_, f2, ?_⟩
    · show (m.insertAdd k0 v0).bind _ = _
      rw [e1]; exact f1
    · intro k hk v
      rw [f3 k hk v, List.append_assoc]; rfl

theorem nextPow2_pow (n : Nat) : ∃ p, nextPow2 n = 2 ^ p := by
  unfold nextPow2
  split
  · exact ⟨0, rfl⟩
  · exact ⟨_, rfl⟩

/-- A fresh map satisfies the invariant, whatever capacity is requested. -/
theorem inv_withCapacity [Zero V] (cap : Nat) : Inv (withCapacity cap : HMap V) := by
  unfold withCapacity
  refine ⟨?_, by simp, by simp, kinv_replicate _, used_replicate _, by simp⟩
  obtain ⟨p, hp⟩ := nextPow2_pow cap
  simp only [List.length_replicate, hp]
  rcases Nat.le_total (2 ^ p) 16 with h | h
  · exact ⟨4, by rw [Nat.max_eq_right h]⟩
  · exact ⟨p, by rw [Nat.max_eq_left h]⟩

theorem withCapacity_empty [Zero V] (cap k : Nat) (hk : k ≠ usizeMax) (v : V) :
    ¬ Has (withCapacity cap : HMap V).keys (withCapacity cap : HMap V).vals k v := by
  rintro ⟨i, _, h, _⟩
  apply hk
  rw [← h]
  unfold withCapacity
  simp only [List.getD_eq_getElem?_getD, List.getElem?_replicate]
  split <;> rfl

theorem mem_pairs {m : HMap V} (h : Inv m) (k : Nat) (v : V) :
    (k, v) ∈ m.pairs ↔ k ≠ usizeMax ∧ Has m.keys m.vals k v := by
  unfold pairs
  rw [List.mem_filter, mem_zip_iff k v h.vlen]
  simp [and_comm]

theorem pairs_nodup {m : HMap V} (h : Inv m) : (m.pairs.map Prod.fst).Nodup := by
  unfold pairs
  rw [List.Nodup, List.pairwise_map, List.pairwise_filter]
  have := h.kinv.pairwise m.vals
  exact this.imp (fun {a b} hab ha _ => hab (by simpa using ha))

/-- C18: after any sequence of insertions (keys below the reserved `usize::MAX`) every
probing loop has stopped, and the listed pairs are exactly the inserted keys, each once,
with the left-to-right sum of its values — for every initial capacity, hence through any
number of growths. -/
theorem hashmap_correct [Zero V] [Add V] (cap : Nat) (ops : List (Nat × V))
    (hops : ∀ e ∈ ops, e.1 < usizeMax) :
    ∃ m, (withCapacity cap : HMap V).insertAll ops = some m ∧
      (m.pairs.map Prod.fst).Nodup ∧
      (∀ k v, (k, v) ∈ m.pairs ↔ total ops k = some v) ∧
      m.len = m.pairs.length := by
  obtain ⟨m, h1, h2, h3⟩ := insertAll_spec ops hops (withCapacity cap) [] (inv_withCapacity cap)
    (fun k hk v => ⟨fun h => absurd h (withCapacity_empty cap k hk v), fun h => by cases h⟩)
  refine ⟨m, h1, pairs_nodup h2, fun k v => ?_, ?_⟩
  · rw [mem_pairs h2]
    constructor
    · rintro ⟨hk, hh⟩; exact (h3 k hk v).1 hh
    · intro ht
      have hk : k ≠ usizeMax := by
        rintro rfl
        have : ops.filter (fun e => e.1 == usizeMax) = [] := by
          rw [List.filter_eq_nil_iff]
          intro e he hc
          have := hops e he
          simp at hc; omega
        unfold total at ht
        rw [this] at ht
        cases ht
      exact ⟨hk, (h3 k hk v).2 ht⟩
  · rw [← h2.len]
    unfold used pairs
    rw [← List.countP_eq_length_filter]
    have hf : (m.keys.zip m.vals).map Prod.fst = m.keys := List.map_fst_zip (by have := h2.vlen; omega)
    conv_lhs => rw [← hf]
    rw [List.countP_map]
    rfl

theorem drain_fold [Zero V] [Add V] (L : List (Nat × V))
    (hdist : L.Pairwise (fun a b => a.1 ≠ usizeMax → a.1 ≠ b.1)) (out : List V)
    (hb : ∀ e ∈ L, e.1 ≠ usizeMax → e.1 < out.length) :
    let o := L.foldl (fun o e => if e.1 ≠ usizeMax then o.set e.1 (o.getD e.1 0 + e.2) else o) out
    o.length = out.length ∧
    ∀ k, k ≠ usizeMax →
      (∀ v, (k, v) ∈ L → o.getD k 0 = out.getD k 0 + v) ∧
      ((∀ v, (k, v) ∉ L) → o.getD k 0 = out.getD k 0) := by
  induction L generalizing out with
  | nil => exact ⟨rfl, fun k _ => ⟨fun v hv => by simp at hv, fun _ => rfl⟩⟩
  | cons e L ih =>
    obtain ⟨k0, v0⟩ := e
    rw [List.pairwise_cons] at hdist
    simp only [List.foldl_cons]
    by_cases hmax : k0 = usizeMax
    · rw [if_neg (by simpa using hmax)]
      obtain ⟨h1, h2⟩ := ih hdist.2 out (fun e he => hb e (by simp [he]))
      refine ⟨h1, fun k hk => ⟨fun v hv => ?_, fun hn => ?_⟩⟩
      · refine (h2 k hk).1 v ?_
        rcases List.mem_cons.1 hv with h | h
        · simp only [Prod.mk.injEq] at h; exact absurd (h.1.trans hmax) hk
        · exact h
      · exact (h2 k hk).2 (fun v hv => hn v (by simp [hv]))
    · rw [if_pos hmax]
      obtain ⟨h1, h2⟩ := ih hdist.2 (out.set k0 (out.getD k0 0 + v0))
        (fun e he hne => by rw [List.length_set]; exact hb e (by simp [he]) hne)
      have hk0 : k0 < out.length := hb (k0, v0) (by simp) hmax
      refine ⟨by simpa using h1, fun k hk => ⟨fun v hv => ?_, fun hn => ?_⟩⟩
      · rcases List.mem_cons.1 hv with h | h
        · simp only [Prod.mk.injEq] at h
          obtain ⟨rfl, rfl⟩ := h
          rw [(h2 k hk).2 (fun v' hv' => hdist.1 _ hv' hmax rfl), getD_set, if_pos ⟨rfl, hk0⟩]
        · rw [(h2 k hk).1 v h, getD_set, if_neg]
          rintro ⟨rfl, _⟩
          exact hdist.1 _ h hmax rfl
      · rw [(h2 k hk).2 (fun v hv => hn v (by simp [hv])), getD_set, if_neg]
        rintro ⟨rfl, _⟩
        exact hn v0 (by simp)

/-- C18: draining adds every key's total to its slot and leaves the other slots alone. -/
theorem hashmap_drain_correct [Zero V] [Add V] (cap : Nat) (ops : List (Nat × V)) (out : List V)
    (hops : ∀ e ∈ ops, e.1 < out.length) (hout : out.length ≤ usizeMax) :
    ∃ m, (withCapacity cap : HMap V).insertAll ops = some m ∧
      (m.drainTo out).length = out.length ∧
      ∀ k, k < out.length →
        (m.drainTo out).getD k 0 = match total ops k with
          | none => out.getD k 0
          | some s => out.getD k 0 + s := by
  have hops' : ∀ e ∈ ops, e.1 < usizeMax := fun e he => by have := hops e he; omega
  obtain ⟨m, h1, h2, h3⟩ := insertAll_spec ops hops' (withCapacity cap) [] (inv_withCapacity cap)
    (fun k hk v => ⟨fun h => absurd h (withCapacity_empty cap k hk v), fun h => by cases h⟩)
  rw [List.nil_append] at h3
  have mem : ∀ k, k ≠ usizeMax → ∀ v, (k, v) ∈ m.keys.zip m.vals ↔ total ops k = some v := by
    intro k hk v; rw [mem_zip_iff k v h2.vlen, h3 k hk v]
  obtain ⟨g1, g2⟩ := drain_fold (m.keys.zip m.vals) (h2.kinv.pairwise m.vals) out (by
    intro e he hne
    have ht := (mem e.1 hne e.2).1 he
    by_contra hlt
    have : ops.filter (fun x => x.1 == e.1) = [] := by
      rw [List.filter_eq_nil_iff]
      intro x hx hc
      have := hops x hx
      simp at hc; omega
    unfold total at ht
    rw [this] at ht
    cases ht)
  refine ⟨m, h1, g1, fun k hk => ?_⟩
  have hk' : k ≠ usizeMax := by omega
  cases ht : total ops k with
  | none => exact (g2 k hk').2 (fun v hv => by rw [mem k hk' v, ht] at hv; cases hv)
  | some s => exact (g2 k hk').1 s ((mem k hk' s).2 ht)

/-- Witness: colliding keys (16, 32, ... share low bits), a repeated key, and enough
insertions to force a growth. -/
example : (withCapacity 3 : HMap Int).keys.length = 16 ∧
    total [(16, (1 : Int)), (32, 2), (16, 5)] 16 = some 6 ∧
    (((withCapacity 3 : HMap Int).insertAll [(16, 1), (32, 2), (16, 5)]).map fun m => m.pairs.length) = some 2 := by
  decide +kernel
example : (((withCapacity 0 : HMap Int).insertAll ((List.range 12).map fun i => (i * 16, (i : Int)))).map
    fun m => m.keys.length) = some 32 := by decide +kernel

end HMap
end Lacuna
