import Verif.Model.PtrSimd
import Verif.Lemmas.PtrRanges
import Verif.Lemmas.Scalar
/-
The SIMD loops at pointer level compute the list-level functions, for every slice.
-/
namespace Lacuna
variable {V : Type}

theorem load4_eq {α : Type} {v : List α} {i : Nat} {a b c d : α} {t : List α}
    (h : v.drop i = a :: b :: c :: d :: t) : load4 v i = .ok (a, b, c, d) := by
  have hl : i ≤ v.length := by
    by_contra hc
    rw [List.drop_eq_nil_of_le (by omega)] at h
    cases h
  unfold load4 Ptr.add
  rw [if_pos (by show 0 + i ≤ v.length; omega), ok_bind]
  unfold Ptr.read4
  show (match v.drop (0 + i) with | a :: b :: c :: d :: _ => _ | _ => _) = _
  rw [Nat.zero_add, h]

theorem drop4 {α : Type} {v : List α} {i : Nat} (h : i + 4 ≤ v.length) :
    ∃ a b c d, v.drop i = a :: b :: c :: d :: v.drop (i + 4) :=
  ⟨v[i], v[i + 1], v[i + 2], v[i + 3], by
    rw [List.drop_eq_getElem_cons (by omega), List.drop_eq_getElem_cons (by omega),
      List.drop_eq_getElem_cons (by omega), List.drop_eq_getElem_cons (by omega)]⟩

theorem drop1 {α : Type} {v : List α} {i : Nat} (h : i < v.length) :
    ∃ a, v.drop i = a :: v.drop (i + 1) ∧ index v i = .ok a :=
  ⟨v[i], List.drop_eq_getElem_cons h, index_eq h⟩

theorem store4_eq {α : Type} {p s : List α} {a b c d a' b' c' d' : α} :
    store4 (p ++ a :: b :: c :: d :: s) p.length (a', b', c', d')
      = .ok (p ++ a' :: b' :: c' :: d' :: s) := by
  unfold store4 Ptr.add asPtr
  rw [if_pos (by simp), ok_bind]
  show (if 0 + p.length + 4 ≤ _ then _ else _) = _
  rw [if_pos (by simp)]
  congr 1
  simp

theorem storeIdx_eq {α : Type} {p s : List α} {a a' : α} :
    storeIdx (p ++ a :: s) p.length a' = .ok (p ++ a' :: s) := by
  unfold storeIdx
  rw [if_pos (by simp)]
  simp

theorem mask4 {len : Nat} (h : len ≤ usizeMax) : andNot len 3 = len - len % 4 :=
  andNot_eq 2 (by decide) h

/-- Two consecutive counting loops, by four and by one. -/
theorem loops4 {σ τ : Type} {F len : Nat} {b4 : Nat × σ → Except Fault (Nat × σ)}
    {b1 : Nat × τ → Except Fault (Nat × τ)} {mid : σ → τ} (I : Nat → σ → Prop) (J : Nat → τ → Prop)
    (hlen : len ≤ usizeMax) (hF : len < F)
    (h4 : ∀ q s, q + 4 ≤ len → I q s → ∃ s', b4 (q, s) = .ok (q + 4, s') ∧ I (q + 4) s')
    (hmid : ∀ q s, q ≤ len → len < q + 4 → I q s → J q (mid s))
    (h1 : ∀ q s, q + 1 ≤ len → J q s → ∃ s', b1 (q, s) = .ok (q + 1, s') ∧ J (q + 1) s')
    (s : σ) (hs : I 0 s) :
    ∃ s' t, untilP F (andNot len 3) b4 (0, s) = .ok (len - len % 4, s') ∧
      untilP F len b1 (len - len % 4, mid s') = .ok (len, t) ∧ J len t := by
  rw [mask4 hlen]
  obtain ⟨s', e1, i1⟩ := untilP_inv (B := 4) (lim := len - len % 4) I
    (fun q s hq hi => h4 q s (by omega) hi) (by decide) (len / 4) F 0 s (by omega) (by omega) hs
  obtain ⟨t, e2, i2⟩ := untilP_inv (B := 1) (lim := len) J h1 (by decide) (len % 4) F
    (len - len % 4) (mid s') (by omega) (by omega) (hmid _ _ (by omega) (by omega) i1)
  exact ⟨s', t, e1, e2, i2⟩

theorem map4P_eq (F : Nat) (f : V → V) (v : List V) (hlen : v.length ≤ usizeMax) (hF : v.length < F) :
    map4P F f v = .ok (v.map f) := by
  obtain ⟨s', t, e1, e2, i2⟩ := loops4 (F := F) (len := v.length) (mid := id)
    (b4 := fun s => do
      let x ← load4 s.2 s.1
      let v ← store4 s.2 s.1 (f x.1, f x.2.1, f x.2.2.1, f x.2.2.2)
      pure (s.1 + 4, v))
    (b1 := fun s => do
      let x ← index s.2 s.1
      let v ← storeIdx s.2 s.1 (f x)
      pure (s.1 + 1, v))
    (fun q s => s = (v.take q).map f ++ v.drop q) (fun q s => s = (v.take q).map f ++ v.drop q)
    hlen hF
    (fun q s hq hs => by
      obtain ⟨a, b, c, d, hd⟩ := drop4 hq
      have hp : ((v.take q).map f).length = q := by simp; omega
      have hs' : s = (v.take q).map f ++ a :: b :: c :: d :: v.drop (q + 4) := by rw [hs, hd]
      refine ⟨(v.take q).map f ++ f a :: f b :: f c :: f d :: v.drop (q + 4), ?_, ?_⟩
      · show (do
          let x ← load4 s q
          let v ← store4 s q (f x.1, f x.2.1, f x.2.2.1, f x.2.2.2)
          pure (q + 4, v)) = _
        rw [load4_eq (v := s) (i := q) (a := a) (b := b) (c := c) (d := d) (t := v.drop (q + 4))
          (by rw [hs', List.drop_left' hp]), ok_bind]
        have := store4_eq (p := (v.take q).map f) (s := v.drop (q + 4)) (a := a) (b := b) (c := c)
          (d := d) (a' := f a) (b' := f b) (c' := f c) (d' := f d)
        rw [hp, ← hs'] at this
        rw [this]; rfl
      · have : v.take (q + 4) = v.take q ++ [a, b, c, d] := by
          rw [List.take_add, hd]; rfl
        rw [this]; simp)
    (fun q s _ _ h => h)
    (fun q s hq hs => by
      obtain ⟨a, hd, _⟩ := drop1 (v := v) (i := q) (by omega)
      have hp : ((v.take q).map f).length = q := by simp; omega
      have hs' : s = (v.take q).map f ++ a :: v.drop (q + 1) := by rw [hs, hd]
      refine ⟨(v.take q).map f ++ f a :: v.drop (q + 1), ?_, ?_⟩
      · show (do
          let x ← index s q
          let v ← storeIdx s q (f x)
          pure (q + 1, v)) = _
        have hi : index s q = .ok a := by
          rw [index_eq (by rw [hs']; simp; omega)]
          congr 1
          rw [List.getElem_of_eq hs', List.getElem_append_right (by omega)]
          have : ∀ k (h : k < (a :: v.drop (q + 1)).length), k = 0 → (a :: v.drop (q + 1))[k] = a := by
            intro k h hk; subst hk; rfl
          exact this _ _ (by omega)
        rw [hi, ok_bind]
        have := storeIdx_eq (p := (v.take q).map f) (s := v.drop (q + 1)) (a := a) (a' := f a)
        rw [hp, ← hs'] at this
        rw [this]; rfl
      · have : v.take (q + 1) = v.take q ++ [a] := by
          rw [List.take_add, hd]; rfl
        rw [this]; simp)
    v (by simp)
  unfold map4P
  show (untilP F (andNot v.length 3) _ (0, v) >>= _) = _
  rw [e1, ok_bind]
  change untilP F v.length _ (v.length - v.length % 4, s') = _ at e2
  rw [e2, ok_bind]
  simp at i2
  rw [i2]; rfl

theorem lanes4_short {W : Type} (op : W → W → W) (acc : Lanes W) (l : List W) (h : l.length < 4) :
    lanes4 op acc l = (acc, l) := by
  match l, h with
  | [], _ => rfl
  | [_], _ => rfl
  | [_, _], _ => rfl
  | [_, _, _], _ => rfl
  | _ :: _ :: _ :: _ :: _, h => simp at h; omega

theorem simdFoldP_eq {W : Type} (F : Nat) (g : V → W) (lane comb tail : W → W → W) (e : W)
    (chunk : List V) (hlen : chunk.length ≤ usizeMax) (hF : chunk.length < F) :
    simdFoldP F g lane comb tail e chunk = .ok (simdFold lane comb tail e (chunk.map g)) := by
  obtain ⟨s', t, e1, e2, i2⟩ := loops4 (F := F) (len := chunk.length)
    (mid := fun s : Lanes W => comb (comb (comb s.1 s.2.1) s.2.2.1) s.2.2.2)
    (b4 := fun s => do
      let x ← load4 chunk s.1
      pure (s.1 + 4, (lane s.2.1 (g x.1), lane s.2.2.1 (g x.2.1), lane s.2.2.2.1 (g x.2.2.1),
        lane s.2.2.2.2 (g x.2.2.2))))
    (b1 := fun s => do
      let x ← index chunk s.1
      pure (s.1 + 1, tail s.2 (g x)))
    (fun q acc => lanes4 lane acc ((chunk.drop q).map g) = lanes4 lane (e, e, e, e) (chunk.map g))
    (fun q acc => ((chunk.drop q).map g).foldl tail acc = simdFold lane comb tail e (chunk.map g))
    hlen hF
    (fun q s hq hs => by
      obtain ⟨a, b, c, d, hd⟩ := drop4 hq
      refine ⟨(lane s.1 (g a), lane s.2.1 (g b), lane s.2.2.1 (g c), lane s.2.2.2 (g d)), ?_, ?_⟩
      · show (do
          let x ← load4 chunk q
          pure (q + 4, (lane s.1 (g x.1), lane s.2.1 (g x.2.1), lane s.2.2.1 (g x.2.2.1),
            lane s.2.2.2 (g x.2.2.2)))) = _
        rw [load4_eq hd]; rfl
      · rw [hd] at hs
        rw [← hs]
        obtain ⟨s1, s2, s3, s4⟩ := s
        rfl)
    (fun q s hq hlt hs => by
      rw [lanes4_short lane s _ (by simp; omega)] at hs
      unfold simdFold
      rw [← hs])
    (fun q s hq hs => by
      obtain ⟨a, hd, hi⟩ := drop1 (v := chunk) (i := q) (by omega)
      refine ⟨tail s (g a), ?_, ?_⟩
      · show (do
          let x ← index chunk q
          pure (q + 1, tail s (g x))) = _
        rw [hi]; rfl
      · rw [hd] at hs
        rw [← hs]; rfl)
    (e, e, e, e) (by simp)
  unfold simdFoldP
  rw [e1, ok_bind]
  change (untilP F chunk.length _ (_, (fun s : Lanes W => comb (comb (comb s.1 s.2.1) s.2.2.1) s.2.2.2) s')
    >>= _) = _
  rw [e2, ok_bind]
  simp at i2
  rw [i2]; rfl

theorem countSigP_eq [HasLt V] [HasAbs V] (F : Nat) (eps : V) (values : List V)
    (hlen : values.length ≤ usizeMax) (hF : values.length < F) :
    countSigP F eps values = .ok (values.countP fun v => flt eps (fabs v)) := by
  have one : ∀ v r, countOne eps v r = r + if flt eps (fabs v) then 1 else 0 := by
    intro v r; unfold countOne; split <;> rfl
  obtain ⟨s', t, e1, e2, i2⟩ := loops4 (F := F) (len := values.length) (mid := id)
    (b4 := fun s => do
      let x ← load4 values s.1
      let r := countOne eps x.1 s.2
      let r := countOne eps x.2.1 r
      let r := countOne eps x.2.2.1 r
      let r := countOne eps x.2.2.2 r
      pure (s.1 + 4, r))
    (b1 := fun s => do
      let x ← index values s.1
      pure (s.1 + 1, countOne eps x s.2))
    (fun q r => r + (values.drop q).countP (fun v => flt eps (fabs v)) = values.countP fun v => flt eps (fabs v))
    (fun q r => r + (values.drop q).countP (fun v => flt eps (fabs v)) = values.countP fun v => flt eps (fabs v))
    hlen hF
    (fun q s hq hs => by
      obtain ⟨a, b, c, d, hd⟩ := drop4 hq
      refine ⟨countOne eps d (countOne eps c (countOne eps b (countOne eps a s))), ?_, ?_⟩
      · show (do
          let x ← load4 values q
          pure (q + 4, countOne eps x.2.2.2 (countOne eps x.2.2.1 (countOne eps x.2.1 (countOne eps x.1 s))))) = _
        rw [load4_eq hd]; rfl
      · rw [hd] at hs
        simp only [List.countP_cons] at hs
        simp only [one]
        omega)
    (fun q s _ _ h => h)
    (fun q s hq hs => by
      obtain ⟨a, hd, hi⟩ := drop1 (v := values) (i := q) (by omega)
      refine ⟨countOne eps a s, ?_, ?_⟩
      · show (do
          let x ← index values q
          pure (q + 1, countOne eps x s)) = _
        rw [hi]; rfl
      · rw [hd] at hs
        simp only [List.countP_cons] at hs
        simp only [one]
        omega)
    0 (by simp)
  unfold countSigP
  rw [e1, ok_bind]
  change untilP F values.length _ (_, s') = _ at e2
  rw [e2, ok_bind]
  simp at i2
  rw [i2]; rfl

theorem chunksOf_length_le {α : Type} (k : Nat) (l c : List α) (h : c ∈ chunksOf k l) :
    c.length ≤ l.length := by
  fun_induction chunksOf k l with
  | case1 => simp at h
  | case2 l hc ih =>
    rcases List.mem_cons.1 h with rfl | h
    · simp
    · have := ih h
      simp at this; omega

theorem reducePtr_iff {W : Type} {f : List V → Except Fault W} {g : List V → W} {op : W → W → W} {e : W}
    {data : List V} (h : ∀ c ∈ chunksOf 4096 data, f c = .ok (g c)) (out : Except Fault W) :
    ReducePtr f op e data out ↔ ∃ r, Rayon op e ((chunksOf 4096 data).map g) r ∧ out = .ok r := by
  unfold ReducePtr
  constructor
  · rintro ⟨oe, hoe, h'⟩
    rw [(parEach_ok h oe).1 hoe] at h'
    exact h'
  · intro h'
    exact ⟨_, (parEach_ok h _).2 rfl, h'⟩

end Lacuna
