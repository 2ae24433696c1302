import Verif.Model.Stats
import Verif.Lemmas.Accum
import Verif.Lemmas.Reduce
import Mathlib.Data.List.Nodup
/-
The striped accumulators that start with the first value: the result at each slot is the
combination of all values with that key, whatever the division of the work.
-/
namespace Lacuna
universe u
variable {W : Type u}

/-- Combination of two optional values. -/
def ocomb (comb : W → W → W) : Option W → Option W → Option W
  | none, y => y
  | some a, none => some a
  | some a, some b => some (comb a b)

/-- All values with key `k`, combined. -/
def kfold (comb : W → W → W) (ops : List (Nat × W)) (k : Nat) : Option W :=
  ((ops.filter fun o => o.1 == k).map fun o => some o.2).foldl (ocomb comb) none

/-- `comb` is associative and commutative. -/
structure IsComm (comb : W → W → W) : Prop where
  assoc : ∀ a b c, comb (comb a b) c = comb a (comb b c)
  comm : ∀ a b, comb a b = comb b a

theorem IsMonoid.isComm {op : W → W → W} {e : W} (h : IsMonoid op e) : IsComm op := ⟨h.assoc, h.comm⟩

theorem IsComm.ocomb {comb : W → W → W} (h : IsComm comb) : IsMonoid (ocomb comb) none where
  assoc a b c := by
    rcases a with _ | a <;> rcases b with _ | b <;> rcases c with _ | c <;>
      simp [Lacuna.ocomb, h.assoc]
  comm a b := by
    rcases a with _ | a <;> rcases b with _ | b <;> simp [Lacuna.ocomb, h.comm]
  unit a := rfl

theorem kfold_nil (comb : W → W → W) (k : Nat) : kfold comb [] k = none := rfl

theorem kfold_snoc (comb : W → W → W) (ops : List (Nat × W)) (o : Nat × W) (k : Nat) :
    kfold comb (ops ++ [o]) k = if o.1 = k then ocomb comb (kfold comb ops k) (some o.2) else kfold comb ops k := by
  unfold kfold
  by_cases h : o.1 = k
  · simp [h, List.foldl_append]
  · simp [h]

theorem kfold_append {comb : W → W → W} (h : IsComm comb) (a b : List (Nat × W)) (k : Nat) :
    kfold comb (a ++ b) k = ocomb comb (kfold comb a k) (kfold comb b k) := by
  unfold kfold
  rw [List.filter_append, List.map_append, h.ocomb.foldl_append]

theorem kfold_perm {comb : W → W → W} (h : IsComm comb) {a b : List (Nat × W)} (hp : a.Perm b) (k : Nat) :
    kfold comb a k = kfold comb b k :=
  h.ocomb.foldl_perm ((hp.filter _).map _)

theorem kfold_flatten {comb : W → W → W} (h : IsComm comb) (L : List (List (Nat × W))) (k : Nat) :
    kfold comb L.flatten k = (L.map fun l => kfold comb l k).foldl (ocomb comb) none := by
  induction L with
  | nil => rfl
  | cons l L ih =>
    rw [List.flatten_cons, kfold_append h, ih, List.map_cons, List.foldl_cons, h.ocomb.unit,
      h.ocomb.foldl_start _ (kfold comb l k)]

theorem kfold_of_not_mem (comb : W → W → W) {ops : List (Nat × W)} {k : Nat} (h : ∀ o ∈ ops, o.1 ≠ k) :
    kfold comb ops k = none := by
  unfold kfold
  rw [List.filter_eq_nil_iff.2 (fun o ho => by simpa using h o ho)]
  rfl

theorem ocomb_isSome (comb : W → W → W) (a b : Option W) : (ocomb comb a b).isSome = (a.isSome || b.isSome) := by
  rcases a with _ | a <;> rcases b with _ | b <;> rfl

theorem kfold_isSome (comb : W → W → W) (ops : List (Nat × W)) (k : Nat) :
    (kfold comb ops k).isSome = ops.any fun o => o.1 == k := by
  unfold kfold
  have : ∀ (l : List (Nat × W)) (s : Option W),
      (((l.filter fun o => o.1 == k).map fun o => some o.2).foldl (ocomb comb) s).isSome =
        (s.isSome || l.any fun o => o.1 == k) := by
    intro l
    induction l with
    | nil => intro s; simp
    | cons o l ih =>
      intro s
      by_cases h : o.1 = k
      · simp [h, ih, ocomb_isSome]
      · have hb : (o.1 == k) = false := by simpa using h
        simp [hb, ih]
  simpa using this ops none

/-- What a slot holds. -/
def look (s : List W × List Bool) (i : Nat) : Option W := if s.2.getD i false then s.1[i]? else none

/-- State after the values `ops`. -/
structure FInv (e : W) (comb : W → W → W) (n : Nat) (ops : List (Nat × W)) (s : List W × List Bool) : Prop where
  len : s.1.length = n
  slen : s.2.length = n
  look : ∀ i, i < n → look s i = kfold comb ops i
  unseen : ∀ i, i < n → s.2.getD i false = false → s.1[i]? = some e

theorem finv_empty (e : W) (comb : W → W → W) (n : Nat) :
    FInv e comb n [] (List.replicate n e, List.replicate n false) where
  len := by simp
  slen := by simp
  look i hi := by simp [look, kfold_nil, hi]
  unseen i hi _ := by simp [hi]

theorem FInv.seen {e : W} {comb : W → W → W} {n : Nat} {ops : List (Nat × W)} {s : List W × List Bool}
    (h : FInv e comb n ops s) {i : Nat} (hi : i < n) : s.2.getD i false = (kfold comb ops i).isSome := by
  rw [← h.look i hi]
  unfold Lacuna.look
  cases hs : s.2.getD i false
  · simp
  · have : i < s.1.length := by rw [h.len]; exact hi
    simp [this]

theorem finv_put {e : W} {comb : W → W → W} {n : Nat} {ops : List (Nat × W)} {s : List W × List Bool}
    (h : FInv e comb n ops s) (o : Nat × W) (ho : o.1 < n) :
    ∃ s', putFirst comb s o.1 o.2 = some s' ∧ FInv e comb n (ops ++ [o]) s' ∧
      s'.2 = s.2.set o.1 true := by
  have h1 : o.1 < s.1.length := by rw [h.len]; exact ho
  have h2 : o.1 < s.2.length := by rw [h.slen]; exact ho
  have hl := h.look o.1 ho
  unfold putFirst
  rw [List.getElem?_eq_getElem h2, List.getElem?_eq_getElem h1]
  cases hs : s.2[o.1]
  · refine ⟨_, rfl, ⟨by simp [h.len], by simp [h.slen], fun i hi => ?_, fun i hi hu => ?_⟩, rfl⟩
    · rw [kfold_snoc]
      by_cases hio : o.1 = i
      · subst hio
        rw [if_pos rfl, ← hl]
        simp [look, h1, h2, hs, ocomb]
      · rw [if_neg hio, ← h.look i hi]
        simp [look, hio]
    · by_cases hio : o.1 = i
      · subst hio; simp [h2] at hu
      · simp only [List.getElem?_set, hio, if_false]
        refine h.unseen i hi ?_
        simpa [List.getElem?_set, hio] using hu
  · refine ⟨_, rfl, ⟨by simp [h.len], by simp [h.slen], fun i hi => ?_, fun i hi hu => ?_⟩, ?_⟩
    · rw [kfold_snoc]
      by_cases hio : o.1 = i
      · subst hio
        rw [if_pos rfl, ← hl]
        simp [look, h1, h2, hs, ocomb]
      · rw [if_neg hio, ← h.look i hi]
        simp [look, hio]
    · by_cases hio : o.1 = i
      · subst hio; simp [h2, hs] at hu
      · simp only [List.getElem?_set, hio, if_false]
        exact h.unseen i hi hu
    · show s.2 = _
      rw [← hs, List.set_getElem_self]

theorem finv_fold {e : W} {comb : W → W → W} {n : Nat} (ops' : List (Nat × W)) {ops : List (Nat × W)}
    {s : List W × List Bool} (h : FInv e comb n ops s) (ho : ∀ o ∈ ops', o.1 < n) :
    ∃ s', ops'.foldlM (fun s o => putFirst comb s o.1 o.2) s = some s' ∧ FInv e comb n (ops ++ ops') s' := by
  induction ops' generalizing ops s with
  | nil => exact ⟨s, rfl, by simpa using h⟩
  | cons o ops' ih =>
    obtain ⟨c1, h1, h2, _⟩ := finv_put h o (ho o (by simp))
    obtain ⟨c2, h3, h4⟩ := ih h2 (fun o' ho' => ho o' (by simp [ho']))
    refine ⟨c2, ?_, by simpa using h4⟩
    rw [List.foldlM_cons, h1]; exact h3

/-- One stripe accumulator. -/
structure PInv (e : W) (comb : W → W → W) (n : Nat) (ops : List (Nat × W)) (c : TouchAcc W) : Prop where
  inv : FInv e comb n ops (c.vals, c.seen)
  nodup : c.touched.Nodup
  mem : ∀ i, i ∈ c.touched ↔ c.seen.getD i false = true

theorem pinv_empty (e : W) (comb : W → W → W) (n : Nat) :
    PInv e comb n [] ⟨List.replicate n e, List.replicate n false, []⟩ where
  inv := finv_empty e comb n
  nodup := by simp
  mem i := by simp [List.getElem?_replicate]; split <;> simp

theorem pinv_put {e : W} {comb : W → W → W} {n : Nat} {ops : List (Nat × W)} {c : TouchAcc W}
    (h : PInv e comb n ops c) (o : Nat × W) (ho : o.1 < n) :
    ∃ c', c.put comb o.1 o.2 = some c' ∧ PInv e comb n (ops ++ [o]) c' := by
  obtain ⟨s', h1, h2, h3⟩ := finv_put h.inv o ho
  have hlen : o.1 < c.seen.length := by rw [h.inv.slen]; exact ho
  refine ⟨_, by unfold TouchAcc.put; rw [h1]; rfl, h2, ?_, fun i => ?_⟩
  · show List.Nodup (if _ then _ else _)
    split
    · exact h.nodup
    · rename_i hu
      refine List.nodup_append.2 ⟨h.nodup, by simp, ?_⟩
      intro a ha b hb
      obtain rfl := List.mem_singleton.1 hb
      rintro rfl
      exact hu ((h.mem _).1 ha)
  · show i ∈ (if _ then _ else _) ↔ s'.2.getD i false = true
    rw [h3]
    simp only
    by_cases hio : o.1 = i
    · subst hio
      split
      · rename_i hu
        simp [hlen, (h.mem _).2 hu]
      · simp [hlen]
    · have he : (c.seen.set o.1 true).getD i false = c.seen.getD i false := by
        simp [hio]
      rw [he]
      split
      · exact h.mem i
      · have := h.mem i
        rw [← this]
        simp [Ne.symm hio]

structure QInv (e : W) (comb : W → W → W) (n stripe : Nat) (ops : List (Nat × W))
    (accs : List (Option (TouchAcc W))) : Prop where
  length : accs.length = (n + stripe - 1) / stripe
  cell : ∀ sid, sid < (n + stripe - 1) / stripe →
    (accs[sid]? = some none ∧ subOps stripe sid ops = []) ∨
    ∃ c, accs[sid]? = some (some c) ∧ PInv e comb (min (n - sid * stripe) stripe) (subOps stripe sid ops) c

theorem qinv_empty (e : W) (comb : W → W → W) (n stripe : Nat) :
    QInv e comb n stripe [] (List.replicate ((n + stripe - 1) / stripe) none) where
  length := by simp
  cell := fun sid hsid => Or.inl ⟨by rw [List.getElem?_replicate, if_pos hsid], rfl⟩

theorem qinv_put {e : W} {comb : W → W → W} {n stripe : Nat} (hs : 0 < stripe) {ops : List (Nat × W)}
    {accs : List (Option (TouchAcc W))} (h : QInv e comb n stripe ops accs) (o : Nat × W) (ho : o.1 < n) :
    ∃ accs', stripePut e comb n stripe accs o.1 o.2 = some accs' ∧ QInv e comb n stripe (ops ++ [o]) accs' := by
  have hsid := sid_lt hs ho
  have hoff : o.1 - o.1 / stripe * stripe < min (n - o.1 / stripe * stripe) stripe := by
    have h1 := Nat.div_mul_le_self o.1 stripe
    have h2 := Nat.lt_div_mul_add hs (a := o.1)
    omega
  obtain ⟨t, ht, hc⟩ : ∃ t, accs[o.1 / stripe]? = some t ∧
      PInv e comb (min (n - o.1 / stripe * stripe) stripe) (subOps stripe (o.1 / stripe) ops)
        (t.getD ⟨List.replicate (min (n - o.1 / stripe * stripe) stripe) e,
          List.replicate (min (n - o.1 / stripe * stripe) stripe) false, []⟩) := by
    rcases h.cell _ hsid with ⟨h1, h2⟩ | ⟨c, h1, h2⟩
    · exact ⟨none, h1, by rw [h2]; exact pinv_empty _ _ _⟩
    · exact ⟨some c, h1, h2⟩
  obtain ⟨c', h1, h2⟩ := pinv_put hc (o.1 - o.1 / stripe * stripe, o.2) hoff
  refine ⟨accs.set (o.1 / stripe) (some c'), ?_, ?_, fun sid hsid' => ?_⟩
  · unfold stripePut
    simp only [ht]
    rw [h1]; rfl
  · rw [List.length_set, h.length]
  · rw [List.getElem?_set]
    by_cases hes : o.1 / stripe = sid
    · subst hes
      rw [if_pos rfl, if_pos (by rw [h.length]; exact hsid)]
      refine Or.inr ⟨c', rfl, ?_⟩
      rw [subOps_append]
      have : subOps stripe (o.1 / stripe) [o] = [(o.1 - o.1 / stripe * stripe, o.2)] := by
        simp [subOps]
      rw [this]; exact h2
    · rw [if_neg hes, subOps_append]
      have : subOps stripe sid [o] = [] := by simp [subOps, hes]
      rw [this, List.append_nil]
      exact h.cell sid hsid'

theorem qinv_fold {e : W} {comb : W → W → W} {n stripe : Nat} (hs : 0 < stripe) (ops' : List (Nat × W))
    {ops : List (Nat × W)} {accs : List (Option (TouchAcc W))} (h : QInv e comb n stripe ops accs)
    (ho : ∀ o ∈ ops', o.1 < n) :
    ∃ accs', ops'.foldlM (fun accs o => stripePut e comb n stripe accs o.1 o.2) accs = some accs' ∧
      QInv e comb n stripe (ops ++ ops') accs' := by
  induction ops' generalizing ops accs with
  | nil => exact ⟨accs, rfl, by simpa using h⟩
  | cons o ops' ih =>
    obtain ⟨c1, h1, h2⟩ := qinv_put hs h o (ho o (by simp))
    obtain ⟨c2, h3, h4⟩ := ih h2 (fun o' ho' => ho o' (by simp [ho']))
    refine ⟨c2, ?_, by simpa using h4⟩
    rw [List.foldlM_cons, h1]; exact h3

theorem kfold_subOps {stripe : Nat} (comb : W → W → W) (ops : List (Nat × W)) (k : Nat) :
    kfold comb (subOps stripe (k / stripe) ops) (k - k / stripe * stripe) = kfold comb ops k := by
  unfold kfold subOps
  congr 1
  induction ops with
  | nil => rfl
  | cons o ops ih =>
    by_cases h1 : o.1 / stripe = k / stripe
    · have hd1 := Nat.div_mul_le_self o.1 stripe
      have hd2 := Nat.div_mul_le_self k stripe
      rw [h1] at hd1
      by_cases h2 : o.1 = k
      · simp [h2] at ih ⊢; exact ih
      · have h3 : ¬ o.1 - k / stripe * stripe = k - k / stripe * stripe := by omega
        simp [h1, h2, h3] at ih ⊢; exact ih
    · have h2 : ¬ o.1 = k := fun h => h1 (by rw [h])
      simp [h1, h2] at ih ⊢; exact ih

theorem kfold_map_nodup (comb : W → W → W) {l : List Nat} (hl : l.Nodup) (f : Nat → W) (base k : Nat) :
    kfold comb (l.map fun i => (base + i, f i)) k =
      if base ≤ k ∧ k - base ∈ l then some (f (k - base)) else none := by
  induction l with
  | nil => simp [kfold]
  | cons i l ih =>
    have hl' := List.nodup_cons.1 hl
    by_cases h : base + i = k
    · have hz : kfold comb (l.map fun i => (base + i, f i)) k = none := by
        apply kfold_of_not_mem
        intro o ho
        obtain ⟨j, hj, rfl⟩ := List.mem_map.1 ho
        intro hjk
        have hjk' : base + j = k := hjk
        have : j = i := by omega
        exact hl'.1 (this ▸ hj)
      rw [if_pos ⟨by omega, by simp; left; omega⟩]
      rw [List.map_cons, show (base + i, f i) :: l.map (fun i => (base + i, f i)) =
        [(base + i, f i)] ++ l.map (fun i => (base + i, f i)) from rfl]
      unfold kfold at hz ⊢
      have hkb : k - base = i := by omega
      rw [hkb]
      have hnil : (l.map (fun i => (base + i, f i))).filter (fun o => o.1 == k) = [] := by
        rw [List.filter_eq_nil_iff]
        intro o ho
        obtain ⟨j, hj, rfl⟩ := List.mem_map.1 ho
        simp only [beq_iff_eq]
        intro hjk
        have : j = i := by omega
        exact hl'.1 (this ▸ hj)
      rw [List.filter_append, hnil]
      simp [h, ocomb]
    · have : kfold comb ((i :: l).map fun i => (base + i, f i)) k = kfold comb (l.map fun i => (base + i, f i)) k := by
        unfold kfold
        simp [h]
      rw [this, ih hl'.2]
      congr 1
      apply propext
      constructor
      · rintro ⟨h1, h2⟩; exact ⟨h1, by simp [h2]⟩
      · rintro ⟨h1, h2⟩
        refine ⟨h1, ?_⟩
        rcases List.mem_cons.1 h2 with h3 | h3
        · omega
        · exact h3

/-- The touched slots of one stripe. -/
theorem PInv.touched {e : W} {comb : W → W → W} {n : Nat} {ops : List (Nat × W)} {c : TouchAcc W}
    (h : PInv e comb n ops c) (base : Nat) :
    ∃ ups, (c.touched.mapM fun off => (c.vals[off]?).map fun w => (base + off, w)) = some ups ∧
      (∀ u ∈ ups, base ≤ u.1 ∧ u.1 < base + n) ∧
      ∀ k, kfold comb ups k = if base ≤ k ∧ k < base + n then kfold comb ops (k - base) else none := by
  have hlt : ∀ i ∈ c.touched, i < n := fun i hi => by
    have := (h.mem i).1 hi
    by_contra hc
    have hs := h.inv.slen
    simp only at hs
    rw [List.getD_eq_getElem?_getD, List.getElem?_eq_none (by omega)] at this
    simp at this
  have hv : ∀ i ∈ c.touched, c.vals[i]? = some (c.vals.getD i e) := fun i hi => by
    have h1 := h.inv.len
    have h2 := hlt i hi
    simp only at h1
    have : i < c.vals.length := by omega
    simp [this]
  refine ⟨c.touched.map fun i => (base + i, c.vals.getD i e), ?_, ?_, fun k => ?_⟩
  · refine mapM_option_map fun i hi => ?_
    rw [hv i hi]; rfl
  · intro u hu
    obtain ⟨i, hi, rfl⟩ := List.mem_map.1 hu
    have := hlt i hi
    exact ⟨Nat.le_add_right _ _, by simpa using this⟩
  · rw [kfold_map_nodup comb h.nodup]
    by_cases hk : base ≤ k ∧ k < base + n
    · rw [if_pos hk, ← h.inv.look (k - base) (by omega)]
      unfold look
      simp only
      by_cases hm : k - base ∈ c.touched
      · rw [if_pos ⟨hk.1, hm⟩, if_pos ((h.mem _).1 hm), hv _ hm]
      · rw [if_neg (fun x => hm x.2), if_neg (fun x => hm ((h.mem _).2 x))]
    · rw [if_neg hk, if_neg (fun x => hk ⟨x.1, by have := hlt _ x.2; omega⟩)]

theorem foldl_ocomb_single {comb : W → W → W} (h : IsComm comb) (N s : Nat) (hs : s < N) (v : Option W) :
    ((List.range N).map fun i => if i = s then v else none).foldl (ocomb comb) none = v := by
  induction N with
  | zero => omega
  | succ N ih =>
    rw [List.range_succ, List.map_append, h.ocomb.foldl_append]
    by_cases hN : s = N
    · subst hN
      rw [List.map_congr_left (g := fun _ => (none : Option W)) (fun i hi => by
        have := List.mem_range.1 hi
        rw [if_neg (by omega)])]
      have : ((List.range s).map fun _ => (none : Option W)).foldl (ocomb comb) none = none := by
        rw [List.map_const', h.ocomb.foldl_replicate]
      rw [this]
      simp [h.ocomb.unit]
    · rw [ih (by omega)]
      simp [Ne.symm hN, h.ocomb.unit']

/-- One thread: nothing panics; merging reads, per key, the combination of the thread's values. -/
theorem stripePuts_ok {e : W} {comb : W → W → W} (hc : IsComm comb) {n stripe : Nat} (hs : 0 < stripe)
    {ops : List (Nat × W)} (ho : ∀ o ∈ ops, o.1 < n) :
    ∃ accs ups, stripePuts e comb n stripe ops = some accs ∧ touchedVals stripe accs = some ups ∧
      (∀ u ∈ ups, u.1 < n) ∧ ∀ k, k < n → kfold comb ups k = kfold comb ops k := by
  obtain ⟨accs, h1, h2⟩ := qinv_fold (e := e) (comb := comb) hs ops (qinv_empty e comb n stripe) ho
  have hex : ∀ sid, sid < accs.length → ∃ ups,
      stripeTouched stripe accs sid = some ups ∧
      (∀ u ∈ ups, u.1 < n) ∧
      ∀ k, k < n → kfold comb ups k = if sid = k / stripe then kfold comb ops k else none := by
    intro sid hsid
    rw [h2.length] at hsid
    rcases h2.cell sid hsid with ⟨g1, g2⟩ | ⟨c, g1, g2⟩
    · refine ⟨[], by unfold stripeTouched; rw [List.getD_eq_getElem?_getD, g1]; rfl, by simp, fun k hk => ?_⟩
      split
      · rename_i he; subst he
        have := kfold_subOps (stripe := stripe) comb ops k
        rw [List.nil_append] at g2
        rw [g2] at this; exact this
      · rfl
    · obtain ⟨ups, u1, u2, u3⟩ := g2.touched (sid * stripe)
      refine ⟨ups, by unfold stripeTouched; rw [List.getD_eq_getElem?_getD, g1]; exact u1, fun u hu => ?_, fun k hk => ?_⟩
      · have := u2 u hu; omega
      · rw [u3]
        have hiff : (sid * stripe ≤ k ∧ k < sid * stripe + min (n - sid * stripe) stripe) ↔ sid = k / stripe := by
          constructor
          · rintro ⟨h1, h2⟩
            symm
            rw [Nat.div_eq_iff hs]; omega
          · rintro rfl
            have h1 := Nat.div_mul_le_self k stripe
            have h2 := Nat.lt_div_mul_add hs (a := k)
            omega
        split
        · rename_i hh
          have := hiff.1 hh
          subst this
          rw [if_pos rfl]
          exact kfold_subOps (stripe := stripe) comb ops k
        · rename_i hh
          rw [if_neg (fun x => hh (hiff.2 x))]
  choose! f hf1 hf2 hf3 using hex
  refine ⟨accs, ((List.range accs.length).map f).flatten, h1, ?_, ?_, fun k hk => ?_⟩
  · unfold touchedVals
    rw [mapM_option_map (g := f) (fun sid hsid => hf1 sid (List.mem_range.1 hsid))]
    rfl
  · intro u hu
    obtain ⟨l, hl, hu⟩ := List.mem_flatten.1 hu
    obtain ⟨sid, hsid, rfl⟩ := List.mem_map.1 hl
    exact hf2 sid (List.mem_range.1 hsid) u hu
  · rw [kfold_flatten hc, List.map_map]
    rw [List.map_congr_left (f := (fun l => kfold comb l k) ∘ f) (g := fun sid => if sid = k / stripe then kfold comb ops k else none)
      (fun sid hsid => hf3 sid (List.mem_range.1 hsid) k hk)]
    rw [foldl_ocomb_single hc]
    rw [h2.length]; exact sid_lt hs hk

/-- All threads. -/
theorem groups_ok {e : W} {comb : W → W → W} (hc : IsComm comb) {n stripe : Nat} (hs : 0 < stripe)
    {groups : List (List (Nat × W))} (ho : ∀ g ∈ groups, ∀ o ∈ g, o.1 < n) :
    ∃ cells ups, groups.mapM (stripePuts e comb n stripe) = some cells ∧
      cells.mapM (touchedVals stripe) = some ups ∧
      (∀ u ∈ ups.flatten, u.1 < n) ∧ ∀ k, k < n → kfold comb ups.flatten k = kfold comb groups.flatten k := by
  induction groups with
  | nil => exact ⟨[], [], rfl, rfl, by simp, fun _ _ => rfl⟩
  | cons g groups ih =>
    obtain ⟨cells, ups, h1, h2, h3, h4⟩ := ih (fun g' hg' => ho g' (by simp [hg']))
    obtain ⟨accs, up, g1, g2, g3, g4⟩ := stripePuts_ok (e := e) hc hs (ho g (by simp))
    refine ⟨accs :: cells, up :: ups, ?_, ?_, ?_, fun k hk => ?_⟩
    · rw [List.mapM_cons, g1, h1]; rfl
    · rw [List.mapM_cons, g2, h2]; rfl
    · intro u hu
      rw [List.flatten_cons] at hu
      rcases List.mem_append.1 hu with hu | hu
      · exact g3 u hu
      · exact h3 u hu
    · rw [List.flatten_cons, List.flatten_cons, kfold_append hc, kfold_append hc, g4 k hk, h4 k hk]

theorem combineSeen_ok {e : W} {comb : W → W → W} (hc : IsComm comb) {n stripe : Nat} (hs : 0 < stripe)
    {groups : List (List (Nat × W))} (ho : ∀ g ∈ groups, ∀ o ∈ g, o.1 < n) :
    ∃ out seen, combineSeen e comb n stripe groups = some (out, seen) ∧ out.length = n ∧
      ∀ k, k < n → seen.getD k false = (kfold comb groups.flatten k).isSome ∧
        out.getD k e = (kfold comb groups.flatten k).getD e := by
  obtain ⟨cells, ups, h1, h2, h3, h4⟩ := groups_ok (e := e) hc hs ho
  obtain ⟨s, g1, g2⟩ := finv_fold ups.flatten (finv_empty e comb n) h3
  refine ⟨s.1, s.2, ?_, g2.len, fun k hk => ?_⟩
  · unfold combineSeen
    rw [h1, Option.bind_some, h2, Option.bind_some, g1]
  · have hsn := g2.seen hk
    have hl := g2.look k hk
    rw [List.nil_append, h4 k hk] at hsn hl
    refine ⟨hsn, ?_⟩
    unfold look at hl
    cases hse : s.2.getD k false
    · rw [hse] at hl
      have := g2.unseen k hk hse
      rw [← hl, List.getD_eq_getElem?_getD, this]; rfl
    · rw [hse] at hl
      rw [← hl, List.getD_eq_getElem?_getD]; rfl

theorem filter_key_map {W : Type u} (ops : List (Nat × W)) (k : Nat) :
    (ops.filter fun x => x.1 == k).map (fun x => some x.2) =
      ((ops.filter fun x => x.1 == k).map Prod.snd).map some := by
  rw [List.map_map]; rfl

theorem kfold_getD {op : W → W → W} {e : W} (h : IsMonoid op e) (ops : List (Nat × W)) (k : Nat) :
    (kfold op ops k).getD e = ((ops.filter fun x => x.1 == k).map Prod.snd).foldl op e := by
  unfold kfold
  rw [filter_key_map]
  have : ∀ (l : List W) (s : Option W),
      ((l.map some).foldl (ocomb op) s).getD e = l.foldl op (s.getD e) := by
    intro l
    induction l with
    | nil => intro s; rfl
    | cons x l ih =>
      intro s
      rw [List.map_cons, List.foldl_cons, ih, List.foldl_cons]
      congr 1
      rcases s with _ | s
      · exact (h.unit x).symm
      · rfl
  exact this _ none

theorem kfold_some {op : W → W → W} {e : W} (h : IsMonoid op e) {ops : List (Nat × W)} {k : Nat}
    (hne : ((ops.filter fun x => x.1 == k).map Prod.snd) ≠ []) :
    kfold op ops k = some (((ops.filter fun x => x.1 == k).map Prod.snd).foldl op e) := by
  have h1 := kfold_isSome op ops k
  have h2 := kfold_getD h ops k
  obtain ⟨x, hx⟩ : ∃ x, x ∈ ops.filter fun x => x.1 == k := by
    exact List.exists_mem_of_ne_nil _ fun hc => hne (by rw [hc]; rfl)
  have h3 : (ops.any fun o => o.1 == k) = true :=
    List.any_eq_true.2 ⟨x, (List.mem_filter.1 hx).1, (List.mem_filter.1 hx).2⟩
  rw [h3] at h1
  obtain ⟨w, hw⟩ := Option.isSome_iff_exists.1 h1
  rw [hw] at h2 ⊢
  rw [← h2]; rfl

theorem kfold_none {op : W → W → W} {ops : List (Nat × W)} {k : Nat}
    (hne : ((ops.filter fun x => x.1 == k).map Prod.snd) = []) : kfold op ops k = none := by
  unfold kfold
  rw [filter_key_map, hne]; rfl


end Lacuna
