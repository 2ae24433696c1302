import Verif.Lemmas.Ptr
namespace Lacuna
variable {V : Type}

/-! ### unfolding the list-level loops -/

section union
variable [Zero V] [BEq V] [Add V]

theorem unionCount_nil (fb : V → V → V) (n : Nat) : unionCount fb n [] [] = some 0 := by
  cases n <;> rfl

theorem unionCount_zero (fb : V → V → V) {a b : Row V} (h : ¬ (a = [] ∧ b = [])) :
    unionCount fb 0 a b = none := by
  cases a <;> cases b <;> first | rfl | exact absurd ⟨rfl, rfl⟩ h

theorem unionCount_succ (fb : V → V → V) (n : Nat) {a b : Row V} (h : ¬ (a = [] ∧ b = [])) :
    unionCount fb (n + 1) a b =
      (unionCount fb n (runAcc (· + ·) (minIdx a b) 0 a).2
        (runAcc fb (minIdx a b) (runAcc (· + ·) (minIdx a b) 0 a).1 b).2).map fun c =>
          if (runAcc fb (minIdx a b) (runAcc (· + ·) (minIdx a b) 0 a).1 b).1 == 0 then c else c + 1 := by
  cases a <;> cases b <;> first | rfl | exact absurd ⟨rfl, rfl⟩ h

theorem addFillLoop_nil (n : Nat) : addFillLoop n ([] : Row V) [] = some [] := by
  cases n <;> rfl

theorem addFillLoop_zero {a b : Row V} (h : ¬ (a = [] ∧ b = [])) : addFillLoop 0 a b = none := by
  cases a <;> cases b <;> first | rfl | exact absurd ⟨rfl, rfl⟩ h

theorem addFillLoop_succ (n : Nat) {a b : Row V} (h : ¬ (a = [] ∧ b = [])) :
    addFillLoop (n + 1) a b =
      (addFillLoop n (runAcc (· + ·) (minIdx a b) 0 a).2
        (runAcc (· + ·) (minIdx a b) (runAcc (· + ·) (minIdx a b) 0 a).1 b).2).map fun out =>
          if (runAcc (· + ·) (minIdx a b) (runAcc (· + ·) (minIdx a b) 0 a).1 b).1 == 0 then out
          else (minIdx a b, (runAcc (· + ·) (minIdx a b) (runAcc (· + ·) (minIdx a b) 0 a).1 b).1)
            :: out := by
  cases a <;> cases b <;> first | rfl | exact absurd ⟨rfl, rfl⟩ h

variable [Sub V]

theorem subFillLoop_nil (n : Nat) : subFillLoop n ([] : Row V) [] = some [] := by
  cases n <;> rfl

theorem subFillLoop_zero {a b : Row V} (h : ¬ (a = [] ∧ b = [])) : subFillLoop 0 a b = none := by
  cases a <;> cases b <;> first | rfl | exact absurd ⟨rfl, rfl⟩ h

theorem subFillLoop_succ_le (n : Nat) {a b : Row V} (h : ¬ (a = [] ∧ b = []))
    (hle : headIdx a ≤ headIdx b) :
    subFillLoop (n + 1) a b =
      (subFillLoop n (runAcc (· + ·) (headIdx a) 0 a).2
        (if headIdx b = headIdx a then
          runAcc (· - ·) (headIdx a) (runAcc (· + ·) (headIdx a) 0 a).1 b
          else ((runAcc (· + ·) (headIdx a) 0 a).1, b)).2).map fun out =>
        if (if headIdx b = headIdx a then
          runAcc (· - ·) (headIdx a) (runAcc (· + ·) (headIdx a) 0 a).1 b
          else ((runAcc (· + ·) (headIdx a) 0 a).1, b)).1 == 0 then out
        else (headIdx a, (if headIdx b = headIdx a then
          runAcc (· - ·) (headIdx a) (runAcc (· + ·) (headIdx a) 0 a).1 b
          else ((runAcc (· + ·) (headIdx a) 0 a).1, b)).1) :: out := by
  cases a <;> cases b <;> first
    | exact absurd ⟨rfl, rfl⟩ h
    | (rw [subFillLoop.eq_def]; simp only [if_pos hle])

theorem subFillLoop_succ_gt (n : Nat) {a b : Row V} (h : ¬ (a = [] ∧ b = []))
    (hle : ¬ headIdx a ≤ headIdx b) :
    subFillLoop (n + 1) a b =
      (subFillLoop n a (runAcc (· - ·) (headIdx b) 0 b).2).map fun out =>
        if (runAcc (· - ·) (headIdx b) 0 b).1 == 0 then out
        else (headIdx b, (runAcc (· - ·) (headIdx b) 0 b).1) :: out := by
  cases a <;> cases b <;> first
    | exact absurd ⟨rfl, rfl⟩ h
    | (rw [subFillLoop.eq_def]; simp only [if_neg hle])

end union

theorem SegOk.drop_nil {idx : Ptr Int} {val : Ptr V} {len : Nat} {r : Row V} (h : SegOk idx val len r)
    {p : Nat} (hp : ¬ p < len) : r.drop p = [] :=
  List.drop_eq_nil_of_le (by have := h.length; omega)

theorem SegOk.drop_ne_nil {idx : Ptr Int} {val : Ptr V} {len : Nat} {r : Row V}
    (h : SegOk idx val len r) {p : Nat} (hp : p < len) : r.drop p ≠ [] := by
  intro e
  have h1 := congrArg List.length e
  have h2 := h.length
  rw [List.length_drop, List.length_nil] at h1
  omega

theorem ArgsOk.cond_true {r : RowArgs V} {ra rb : Row V} (h : ArgsOk r ra rb) {pa pb : Nat}
    (hn : ¬ (ra.drop pa = [] ∧ rb.drop pb = [])) :
    (decide (pa < r.alen) || decide (pb < r.blen)) = true := by
  by_cases h1 : pa < r.alen
  · simp [h1]
  · by_cases h2 : pb < r.blen
    · simp [h2]
    · exact absurd ⟨h.a.drop_nil h1, h.b.drop_nil h2⟩ hn

theorem ArgsOk.cond_false {r : RowArgs V} {ra rb : Row V} (h : ArgsOk r ra rb) {pa pb : Nat}
    (hn : ra.drop pa = [] ∧ rb.drop pb = []) :
    (decide (pa < r.alen) || decide (pb < r.blen)) = false := by
  by_cases h1 : pa < r.alen
  · exact absurd hn.1 (h.a.drop_ne_nil h1)
  · by_cases h2 : pb < r.blen
    · exact absurd hn.2 (h.b.drop_ne_nil h2)
    · simp [h1, h2]

section union
variable [Zero V] [BEq V] [Add V]

theorem unionCountP_eq {r : RowArgs V} {ra rb : Row V} (h : ArgsOk r ra rb) (fb : V → V → V)
    {F n c : Nat} (hc : unionCount fb n ra rb = some c) (hF : n < F) (ha : r.alen < F)
    (hb : r.blen < F) : unionCountP fb F r = .ok c := by
  have key : ∀ (n G pa pb cnt c : Nat), unionCount fb n (ra.drop pa) (rb.drop pb) = some c →
      pa ≤ r.alen → pb ≤ r.blen → n < G → ∃ s : CountSt, whileM
        (fun (s : CountSt) => pure (decide (s.pa < r.alen) || decide (s.pb < r.blen)))
        (fun s => do
          let ja ← headP r.ai r.alen s.pa
          let jb ← headP r.bi r.blen s.pb
          let j := if ja ≤ jb then ja else jb
          let (pa, v) ← runP F (· + ·) r.ai r.av r.alen j s.pa 0
          let (pb, v) ← runP F fb r.bi r.bv r.blen j s.pb v
          pure ⟨pa, pb, if v == 0 then s.cnt else s.cnt + 1⟩)
        G ⟨pa, pb, cnt⟩ = .ok s ∧ s.cnt = cnt + c := by
    intro n
    induction n with
    | zero =>
      intro G pa pb cnt c hc hpa hpb hG
      obtain ⟨G, rfl⟩ : ∃ G', G = G' + 1 := ⟨G - 1, by omega⟩
      by_cases hn : ra.drop pa = [] ∧ rb.drop pb = []
      · rw [hn.1, hn.2, unionCount_nil] at hc
        refine ⟨_, whileM_false ?_, ?_⟩
        · have := h.cond_false hn
          show Except.ok (_ || _) = _
          rw [this]
        · simp at hc; simp [← hc]
      · rw [unionCount_zero _ hn] at hc; cases hc
    | succ n ih =>
      intro G pa pb cnt c hc hpa hpb hG
      obtain ⟨G, rfl⟩ : ∃ G', G = G' + 1 := ⟨G - 1, by omega⟩
      by_cases hn : ra.drop pa = [] ∧ rb.drop pb = []
      · rw [hn.1, hn.2, unionCount_nil] at hc
        refine ⟨_, whileM_false ?_, ?_⟩
        · have := h.cond_false hn
          show Except.ok (_ || _) = _
          rw [this]
        · simp at hc; simp [← hc]
      · rw [unionCount_succ _ _ hn, Option.map_eq_some_iff] at hc
        obtain ⟨c', hc', rfl⟩ := hc
        obtain ⟨pa', e1, l1, d1⟩ := runP_eq h.a (· + ·) (minIdx (ra.drop pa) (rb.drop pb)) F pa 0
          hpa (by omega)
        obtain ⟨pb', e2, l2, d2⟩ := runP_eq h.b fb (minIdx (ra.drop pa) (rb.drop pb)) F pb
          (runAcc (· + ·) (minIdx (ra.drop pa) (rb.drop pb)) 0 (ra.drop pa)).1 hpb (by omega)
        rw [← d1, ← d2] at hc'
        have hcond := h.cond_true hn
        rw [whileM_true (s' := ⟨pa', pb', _⟩) (by show Except.ok (_ || _) = _; rw [hcond]) (by
          simp only [headP_eq h.a, headP_eq h.b, ok_bind]
          show (runP F (· + ·) r.ai r.av r.alen (minIdx (ra.drop pa) (rb.drop pb)) pa 0 >>= _) = _
          rw [e1, ok_bind]
          show (runP F fb r.bi r.bv r.blen (minIdx (ra.drop pa) (rb.drop pb)) pb _ >>= _) = _
          rw [e2, ok_bind]; rfl)]
        obtain ⟨s, hs, hs2⟩ := ih G pa' pb' _ _ hc' l1 l2 (by omega)
        refine ⟨s, hs, ?_⟩
        rw [hs2]
        split <;> omega
  obtain ⟨s, hs, hs2⟩ := key n F 0 0 0 c (by simpa using hc) (by omega) (by omega) hF
  unfold unionCountP
  rw [hs, ok_bind, hs2, Nat.zero_add]
  rfl

/-- A filling routine whose loop invariant is "the stores made so far are `out`". -/
theorem addRowFillP_eq {r : RowArgs V} {ra rb : Row V} (h : ArgsOk r ra rb)
    {F n st : Nat} {res : Row V} (hc : addFillLoop n ra rb = some res) (hF : n < F)
    (ha : r.alen < F) (hb : r.blen < F) {oi ov : MutPtr} (hi : oi.off = st) (hv : ov.off = st)
    (ci : st + res.length ≤ oi.cap) (cv : st + res.length ≤ ov.cap) :
    addRowFillP F r oi ov = .ok (res.length, storesAt st res) := by
  have key : ∀ (n G pa pb : Nat) (out res : Row V), addFillLoop n (ra.drop pa) (rb.drop pb) = some res →
      pa ≤ r.alen → pb ≤ r.blen → n < G → st + (out ++ res).length ≤ oi.cap →
      st + (out ++ res).length ≤ ov.cap → ∃ s : FillSt V, whileM
        (fun (s : FillSt V) => pure (decide (s.pa < r.alen) || decide (s.pb < r.blen)))
        (fun s => do
          let ja ← headP r.ai r.alen s.pa
          let jb ← headP r.bi r.blen s.pb
          let j := if ja ≤ jb then ja else jb
          let (pa, v) ← runP F (· + ·) r.ai r.av r.alen j s.pa 0
          let (pb, v) ← runP F (· + ·) r.bi r.bv r.blen j s.pb v
          let s := { s with pa := pa, pb := pb }
          if v == 0 then pure s else emitP oi ov j v s)
        G ⟨pa, pb, out.length, storesAt st out⟩ = .ok s ∧ s.dst = (out ++ res).length ∧
          s.out = storesAt st (out ++ res) := by
    intro n
    induction n with
    | zero =>
      intro G pa pb out res hc hpa hpb hG _ _
      obtain ⟨G, rfl⟩ : ∃ G', G = G' + 1 := ⟨G - 1, by omega⟩
      by_cases hn : ra.drop pa = [] ∧ rb.drop pb = []
      · rw [hn.1, hn.2, addFillLoop_nil, Option.some.injEq] at hc
        subst hc
        refine ⟨_, whileM_false ?_, by simp, by simp⟩
        have := h.cond_false hn
        show Except.ok (_ || _) = _
        rw [this]
      · rw [addFillLoop_zero hn] at hc; cases hc
    | succ n ih =>
      intro G pa pb out res hc hpa hpb hG ci cv
      obtain ⟨G, rfl⟩ : ∃ G', G = G' + 1 := ⟨G - 1, by omega⟩
      by_cases hn : ra.drop pa = [] ∧ rb.drop pb = []
      · rw [hn.1, hn.2, addFillLoop_nil, Option.some.injEq] at hc
        subst hc
        refine ⟨_, whileM_false ?_, by simp, by simp⟩
        have := h.cond_false hn
        show Except.ok (_ || _) = _
        rw [this]
      · rw [addFillLoop_succ _ hn, Option.map_eq_some_iff] at hc
        obtain ⟨res', hc', rfl⟩ := hc
        obtain ⟨pa', e1, l1, d1⟩ := runP_eq h.a (· + ·) (minIdx (ra.drop pa) (rb.drop pb)) F pa 0
          hpa (by omega)
        obtain ⟨pb', e2, l2, d2⟩ := runP_eq h.b (· + ·) (minIdx (ra.drop pa) (rb.drop pb)) F pb
          (runAcc (· + ·) (minIdx (ra.drop pa) (rb.drop pb)) 0 (ra.drop pa)).1 hpb (by omega)
        rw [← d1, ← d2] at hc'
        generalize hj : minIdx (ra.drop pa) (rb.drop pb) = j at *
        generalize hv' : (runAcc (· + ·) j (runAcc (· + ·) j 0 (ra.drop pa)).1 (rb.drop pb)).1 = v at *
        have hcond := h.cond_true hn
        by_cases hz : (v == 0) = true
        · rw [if_pos hz] at ci cv ⊢
          rw [whileM_true (s' := ⟨pa', pb', out.length, storesAt st out⟩)
            (by show Except.ok (_ || _) = _; rw [hcond]) (by
            simp only [headP_eq h.a, headP_eq h.b, ok_bind]
            show (runP F (· + ·) r.ai r.av r.alen (minIdx (ra.drop pa) (rb.drop pb)) pa 0 >>= _) = _
            rw [hj, e1, ok_bind]
            show (runP F (· + ·) r.bi r.bv r.blen (minIdx (ra.drop pa) (rb.drop pb)) pb _ >>= _) = _
            rw [hj, e2, ok_bind]
            show (if (v == 0) = true then _ else _) = _
            rw [if_pos hz]; rfl)]
          exact ih G pa' pb' out _ hc' l1 l2 (by omega) ci cv
        · rw [if_neg hz] at ci cv ⊢
          rw [whileM_true (s' := ⟨pa', pb', (out ++ [(j, v)]).length, storesAt st (out ++ [(j, v)])⟩)
            (by show Except.ok (_ || _) = _; rw [hcond]) (by
            simp only [headP_eq h.a, headP_eq h.b, ok_bind]
            show (runP F (· + ·) r.ai r.av r.alen (minIdx (ra.drop pa) (rb.drop pb)) pa 0 >>= _) = _
            rw [hj, e1, ok_bind]
            show (runP F (· + ·) r.bi r.bv r.blen (minIdx (ra.drop pa) (rb.drop pb)) pb _ >>= _) = _
            rw [hj, e2, ok_bind]
            show (if (v == 0) = true then _ else emitP oi ov (minIdx (ra.drop pa) (rb.drop pb)) v _) = _
            rw [if_neg hz, hj]
            exact emitP_eq hi hv (by simp at ci; omega) (by simp at cv; omega) rfl rfl)]
          obtain ⟨s, h1, h2, h3⟩ := ih G pa' pb' (out ++ [(j, v)]) _ hc' l1 l2 (by omega)
            (by simpa using ci) (by simpa using cv)
          exact ⟨s, h1, by simpa using h2, by simpa using h3⟩
  obtain ⟨s, h1, h2, h3⟩ := key n F 0 0 [] res (by simpa using hc) (by omega) (by omega) hF
    (by simpa using ci) (by simpa using cv)
  unfold addRowFillP
  simp only [storesAt, List.map_nil, lineWrites, List.length_nil] at h1
  rw [h1, ok_bind, h2, h3]
  rfl

theorem subRowFillP_eq [Sub V] {r : RowArgs V} {ra rb : Row V} (h : ArgsOk r ra rb)
    {F n st : Nat} {res : Row V} (hc : subFillLoop n ra rb = some res) (hF : n < F)
    (ha : r.alen < F) (hb : r.blen < F) {oi ov : MutPtr} (hi : oi.off = st) (hv : ov.off = st)
    (ci : st + res.length ≤ oi.cap) (cv : st + res.length ≤ ov.cap) :
    subRowFillP F r oi ov = .ok (res.length, storesAt st res) := by
  have key : ∀ (n G pa pb : Nat) (out res : Row V), subFillLoop n (ra.drop pa) (rb.drop pb) = some res →
      pa ≤ r.alen → pb ≤ r.blen → n < G → st + (out ++ res).length ≤ oi.cap →
      st + (out ++ res).length ≤ ov.cap → ∃ s : FillSt V, whileM
        (fun (s : FillSt V) => pure (decide (s.pa < r.alen) || decide (s.pb < r.blen)))
        (fun s => do
          let ja ← headP r.ai r.alen s.pa
          let jb ← headP r.bi r.blen s.pb
          if ja ≤ jb then
            let j := ja
            let (pa, v) ← runP F (· + ·) r.ai r.av r.alen j s.pa 0
            let (pb, v) ←
              if jb = j then runP F (· - ·) r.bi r.bv r.blen j s.pb v else pure (s.pb, v)
            let s := { s with pa := pa, pb := pb }
            if v == 0 then pure s else emitP oi ov j v s
          else
            let j := jb
            let (pb, v) ← runP F (· - ·) r.bi r.bv r.blen j s.pb 0
            let s := { s with pb := pb }
            if v == 0 then pure s else emitP oi ov j v s)
        G ⟨pa, pb, out.length, storesAt st out⟩ = .ok s ∧ s.dst = (out ++ res).length ∧
          s.out = storesAt st (out ++ res) := by
    intro n
    induction n with
    | zero =>
      intro G pa pb out res hc hpa hpb hG _ _
      obtain ⟨G, rfl⟩ : ∃ G', G = G' + 1 := ⟨G - 1, by omega⟩
      by_cases hn : ra.drop pa = [] ∧ rb.drop pb = []
      · rw [hn.1, hn.2, subFillLoop_nil, Option.some.injEq] at hc
        subst hc
        refine ⟨_, whileM_false ?_, by simp, by simp⟩
        have := h.cond_false hn
        show Except.ok (_ || _) = _
        rw [this]
      · rw [subFillLoop_zero hn] at hc; cases hc
    | succ n ih =>
      intro G pa pb out res hc hpa hpb hG ci cv
      obtain ⟨G, rfl⟩ : ∃ G', G = G' + 1 := ⟨G - 1, by omega⟩
      by_cases hn : ra.drop pa = [] ∧ rb.drop pb = []
      · rw [hn.1, hn.2, subFillLoop_nil, Option.some.injEq] at hc
        subst hc
        refine ⟨_, whileM_false ?_, by simp, by simp⟩
        have := h.cond_false hn
        show Except.ok (_ || _) = _
        rw [this]
      · have hcond := h.cond_true hn
        -- the continuation common to both branches
        have fin : ∀ (j : Int) (v : V) (pa' pb' : Nat) (res' : Row V),
            subFillLoop n (ra.drop pa') (rb.drop pb') = some res' → pa' ≤ r.alen → pb' ≤ r.blen →
            res = (if (v == 0) = true then res' else (j, v) :: res') →
            (do
              let ja ← headP r.ai r.alen pa
              let jb ← headP r.bi r.blen pb
              if ja ≤ jb then
                let j := ja
                let (pa, v) ← runP F (· + ·) r.ai r.av r.alen j pa 0
                let (pb, v) ←
                  if jb = j then runP F (· - ·) r.bi r.bv r.blen j pb v else pure (pb, v)
                let s : FillSt V := ⟨pa, pb, out.length, storesAt st out⟩
                if v == 0 then pure s else emitP oi ov j v s
              else
                let j := jb
                let (pb, v) ← runP F (· - ·) r.bi r.bv r.blen j pb 0
                let s : FillSt V := ⟨pa, pb, out.length, storesAt st out⟩
                if v == 0 then pure s else emitP oi ov j v s) =
              (if (v == 0) = true then pure ⟨pa', pb', out.length, storesAt st out⟩
                else emitP oi ov j v ⟨pa', pb', out.length, storesAt st out⟩) →
            ∃ s : FillSt V, whileM
              (fun (s : FillSt V) => pure (decide (s.pa < r.alen) || decide (s.pb < r.blen)))
              (fun s => do
                let ja ← headP r.ai r.alen s.pa
                let jb ← headP r.bi r.blen s.pb
                if ja ≤ jb then
                  let j := ja
                  let (pa, v) ← runP F (· + ·) r.ai r.av r.alen j s.pa 0
                  let (pb, v) ←
                    if jb = j then runP F (· - ·) r.bi r.bv r.blen j s.pb v else pure (s.pb, v)
                  let s := { s with pa := pa, pb := pb }
                  if v == 0 then pure s else emitP oi ov j v s
                else
                  let j := jb
                  let (pb, v) ← runP F (· - ·) r.bi r.bv r.blen j s.pb 0
                  let s := { s with pb := pb }
                  if v == 0 then pure s else emitP oi ov j v s)
              (G + 1) ⟨pa, pb, out.length, storesAt st out⟩ = .ok s ∧ s.dst = (out ++ res).length ∧
                s.out = storesAt st (out ++ res) := by
          intro j v pa' pb' res' hc' l1 l2 hres hbody
          by_cases hz : (v == 0) = true
          · rw [if_pos hz] at hres hbody
            subst hres
            rw [whileM_true (s' := ⟨pa', pb', out.length, storesAt st out⟩)
              (by show Except.ok (_ || _) = _; rw [hcond]) hbody]
            exact ih G pa' pb' out _ hc' l1 l2 (by omega) ci cv
          · rw [if_neg hz] at hres hbody
            subst hres
            rw [emitP_eq (s := ⟨pa', pb', out.length, storesAt st out⟩) hi hv (by simp at ci; omega)
              (by simp at cv; omega) rfl rfl] at hbody
            rw [whileM_true (s' := ⟨pa', pb', (out ++ [(j, v)]).length, storesAt st (out ++ [(j, v)])⟩)
              (by show Except.ok (_ || _) = _; rw [hcond]) hbody]
            obtain ⟨s, h1, h2, h3⟩ := ih G pa' pb' (out ++ [(j, v)]) _ hc' l1 l2 (by omega)
              (by simpa using ci) (by simpa using cv)
            exact ⟨s, h1, by simpa using h2, by simpa using h3⟩
        by_cases hle : headIdx (ra.drop pa) ≤ headIdx (rb.drop pb)
        · rw [subFillLoop_succ_le _ hn hle, Option.map_eq_some_iff] at hc
          obtain ⟨res', hc', hres⟩ := hc
          obtain ⟨pa', e1, l1, d1⟩ := runP_eq h.a (· + ·) (headIdx (ra.drop pa)) F pa 0
            hpa (by omega)
          rw [← d1] at hc'
          by_cases he : headIdx (rb.drop pb) = headIdx (ra.drop pa)
          · obtain ⟨pb', e2, l2, d2⟩ := runP_eq h.b (· - ·) (headIdx (ra.drop pa)) F pb
              (runAcc (· + ·) (headIdx (ra.drop pa)) 0 (ra.drop pa)).1 hpb (by omega)
            rw [if_pos he, ← d2] at hc'
            rw [if_pos he] at hres
            refine fin _ _ pa' pb' res' hc' l1 l2 hres.symm ?_
            rw [headP_eq h.a, headP_eq h.b, ok_bind, ok_bind, if_pos hle]
            simp only [e1, ok_bind, if_pos he, e2]
          · rw [if_neg he] at hc' hres
            refine fin _ _ pa' pb res' hc' l1 hpb hres.symm ?_
            rw [headP_eq h.a, headP_eq h.b, ok_bind, ok_bind, if_pos hle]
            simp only [e1, ok_bind, if_neg he]
            rfl
        · rw [subFillLoop_succ_gt _ hn hle, Option.map_eq_some_iff] at hc
          obtain ⟨res', hc', hres⟩ := hc
          obtain ⟨pb', e2, l2, d2⟩ := runP_eq h.b (· - ·) (headIdx (rb.drop pb)) F pb 0 hpb (by omega)
          rw [← d2] at hc'
          refine fin _ _ pa pb' res' hc' hpa l2 hres.symm ?_
          rw [headP_eq h.a, headP_eq h.b, ok_bind, ok_bind, if_neg hle]
          simp only [e2, ok_bind]
  obtain ⟨s, h1, h2, h3⟩ := key n F 0 0 [] res (by simpa using hc) (by omega) (by omega) hF
    (by simpa using ci) (by simpa using cv)
  unfold subRowFillP
  simp only [storesAt, List.map_nil, lineWrites, List.length_nil] at h1
  rw [h1, ok_bind, h2, h3]
  rfl

end union

section inter
variable [Zero V] [Add V]

omit [Zero V] [Add V] in
theorem ArgsOk.and_cases {r : RowArgs V} {ra rb : Row V} (h : ArgsOk r ra rb) (pa pb : Nat) :
    ((decide (pa < r.alen) && decide (pb < r.blen)) = false ∧ (ra.drop pa = [] ∨ rb.drop pb = [])) ∨
    ((decide (pa < r.alen) && decide (pb < r.blen)) = true ∧ ∃ ja xa a jb xb b,
      ra.drop pa = (ja, xa) :: a ∧ rb.drop pb = (jb, xb) :: b ∧ r.ai.get pa = .ok ja ∧
      r.bi.get pb = .ok jb) := by
  have la := h.a.length
  have lb := h.b.length
  by_cases h1 : pa < r.alen
  · by_cases h2 : pb < r.blen
    · refine .inr ⟨by simp [h1, h2], (ra[pa]'(by omega)).1, (ra[pa]'(by omega)).2, ra.drop (pa + 1),
        (rb[pb]'(by omega)).1, (rb[pb]'(by omega)).2, rb.drop (pb + 1),
        List.drop_eq_getElem_cons (by omega), List.drop_eq_getElem_cons (by omega),
        h.a.idx_get pa (by omega), h.b.idx_get pb (by omega)⟩
    · exact .inl ⟨by simp [h2], .inr (h.b.drop_nil h2)⟩
  · exact .inl ⟨by simp [h1], .inl (h.a.drop_nil h1)⟩

theorem interCount_nil (keep : V → V → Bool) (n : Nat) {a b : Row V} (h : a = [] ∨ b = []) :
    interCount keep n a b = some 0 := by
  cases a <;> cases b <;> cases n <;> first | rfl | (simp at h)

theorem interFill_nil (cell : V → V → Option V) (n : Nat) {a b : Row V} (h : a = [] ∨ b = []) :
    interFill cell n a b = some [] := by
  cases a <;> cases b <;> cases n <;> first | rfl | (simp at h)

theorem interCountP_eq {r : RowArgs V} {ra rb : Row V} (h : ArgsOk r ra rb) (keep : V → V → Bool)
    {F n c : Nat} (hc : interCount keep n ra rb = some c) (hF : n < F) (ha : r.alen < F)
    (hb : r.blen < F) : interCountP keep F r = .ok c := by
  have key : ∀ (n G pa pb cnt c : Nat), interCount keep n (ra.drop pa) (rb.drop pb) = some c →
      pa ≤ r.alen → pb ≤ r.blen → n < G → ∃ s : CountSt, whileM
        (fun (s : CountSt) => pure (decide (s.pa < r.alen) && decide (s.pb < r.blen)))
        (fun s => do
          let ja ← r.ai.get s.pa
          let jb ← r.bi.get s.pb
          if ja = jb then
            let (pa, sa) ← runP F (· + ·) r.ai r.av r.alen ja s.pa 0
            let (pb, sb) ← runP F (· + ·) r.bi r.bv r.blen ja s.pb 0
            pure ⟨pa, pb, if keep sa sb then s.cnt + 1 else s.cnt⟩
          else if ja < jb then
            let pa ← skipP F r.ai r.alen ja s.pa
            pure { s with pa := pa }
          else
            let pb ← skipP F r.bi r.blen jb s.pb
            pure { s with pb := pb })
        G ⟨pa, pb, cnt⟩ = .ok s ∧ s.cnt = cnt + c := by
    intro n
    induction n with
    | zero =>
      intro G pa pb cnt c hc hpa hpb hG
      obtain ⟨G, rfl⟩ : ∃ G', G = G' + 1 := ⟨G - 1, by omega⟩
      rcases h.and_cases pa pb with ⟨hcond, hn⟩ | ⟨hcond, ja, xa, a, jb, xb, b, ea, eb, ga, gb⟩
      · rw [interCount_nil _ _ hn, Option.some.injEq] at hc
        subst hc
        exact ⟨_, whileM_false (by show Except.ok (_ && _) = _; rw [hcond]), rfl⟩
      · rw [ea, eb] at hc; cases hc
    | succ n ih =>
      intro G pa pb cnt c hc hpa hpb hG
      obtain ⟨G, rfl⟩ : ∃ G', G = G' + 1 := ⟨G - 1, by omega⟩
      rcases h.and_cases pa pb with ⟨hcond, hn⟩ | ⟨hcond, ja, xa, a, jb, xb, b, ea, eb, ga, gb⟩
      · rw [interCount_nil _ _ hn, Option.some.injEq] at hc
        subst hc
        exact ⟨_, whileM_false (by show Except.ok (_ && _) = _; rw [hcond]), rfl⟩
      · have ct : (pure (decide (pa < r.alen) && decide (pb < r.blen)) : Except Fault Bool)
          = .ok true := by show Except.ok (_ && _) = _; rw [hcond]
        rw [ea, eb, interCount] at hc
        by_cases he : ja = jb
        · rw [if_pos he, Option.map_eq_some_iff] at hc
          obtain ⟨c', hc', rfl⟩ := hc
          obtain ⟨pa', e1, l1, d1⟩ := runP_eq h.a (· + ·) ja F pa 0 hpa (by omega)
          obtain ⟨pb', e2, l2, d2⟩ := runP_eq h.b (· + ·) ja F pb 0 hpb (by omega)
          rw [ea] at d1 e1
          rw [eb] at d2 e2
          rw [← d1, ← d2] at hc'
          rw [whileM_true (s' := ⟨pa', pb', _⟩) (by exact ct)
            (by simp only [ga, gb, ok_bind, if_pos he, e1, e2]; rfl)]
          obtain ⟨s, hs, hs2⟩ := ih G pa' pb' _ _ hc' l1 l2 (by omega)
          refine ⟨s, hs, ?_⟩
          rw [hs2]
          split <;> omega
        · rw [if_neg he] at hc
          by_cases hl : ja < jb
          · rw [if_pos hl] at hc
            obtain ⟨pa', e1, l1, d1⟩ := skipP_eq h.a ja F pa hpa (by omega)
            rw [ea] at d1
            rw [← d1, ← eb] at hc
            rw [whileM_true (s' := ⟨pa', pb, cnt⟩) (by exact ct)
              (by simp only [ga, gb, ok_bind, if_neg he, if_pos hl, e1]; rfl)]
            exact ih G pa' pb _ _ hc l1 hpb (by omega)
          · rw [if_neg hl] at hc
            obtain ⟨pb', e1, l1, d1⟩ := skipP_eq h.b jb F pb hpb (by omega)
            rw [eb] at d1
            rw [← d1, ← ea] at hc
            rw [whileM_true (s' := ⟨pa, pb', cnt⟩) (by exact ct)
              (by simp only [ga, gb, ok_bind, if_neg he, if_neg hl, e1]; rfl)]
            exact ih G pa pb' _ _ hc hpa l1 (by omega)
  obtain ⟨s, hs, hs2⟩ := key n F 0 0 0 c (by simpa using hc) (by omega) (by omega) hF
  unfold interCountP
  rw [hs, ok_bind, hs2, Nat.zero_add]
  rfl

theorem interFillP_eq {r : RowArgs V} {ra rb : Row V} (h : ArgsOk r ra rb)
    (cell : V → V → Option V) {F n st : Nat} {res : Row V}
    (hc : interFill cell n ra rb = some res) (hF : n < F)
    (ha : r.alen < F) (hb : r.blen < F) {oi ov : MutPtr} (hi : oi.off = st) (hv : ov.off = st)
    (ci : st + res.length ≤ oi.cap) (cv : st + res.length ≤ ov.cap) :
    interFillP cell F r oi ov = .ok (res.length, storesAt st res) := by
  have key : ∀ (n G pa pb : Nat) (out res : Row V),
      interFill cell n (ra.drop pa) (rb.drop pb) = some res →
      pa ≤ r.alen → pb ≤ r.blen → n < G → st + (out ++ res).length ≤ oi.cap →
      st + (out ++ res).length ≤ ov.cap → ∃ s : FillSt V, whileM
        (fun (s : FillSt V) => pure (decide (s.pa < r.alen) && decide (s.pb < r.blen)))
        (fun s => do
          let ja ← r.ai.get s.pa
          let jb ← r.bi.get s.pb
          if ja = jb then
            let (pa, sa) ← runP F (· + ·) r.ai r.av r.alen ja s.pa 0
            let (pb, sb) ← runP F (· + ·) r.bi r.bv r.blen ja s.pb 0
            let s := { s with pa := pa, pb := pb }
            match cell sa sb with
            | some v => emitP oi ov ja v s
            | none => pure s
          else if ja < jb then
            let pa ← skipP F r.ai r.alen ja s.pa
            pure { s with pa := pa }
          else
            let pb ← skipP F r.bi r.blen jb s.pb
            pure { s with pb := pb })
        G ⟨pa, pb, out.length, storesAt st out⟩ = .ok s ∧ s.dst = (out ++ res).length ∧
          s.out = storesAt st (out ++ res) := by
    intro n
    induction n with
    | zero =>
      intro G pa pb out res hc hpa hpb hG _ _
      obtain ⟨G, rfl⟩ : ∃ G', G = G' + 1 := ⟨G - 1, by omega⟩
      rcases h.and_cases pa pb with ⟨hcond, hn⟩ | ⟨hcond, ja, xa, a, jb, xb, b, ea, eb, ga, gb⟩
      · rw [interFill_nil _ _ hn, Option.some.injEq] at hc
        subst hc
        exact ⟨_, whileM_false (by show Except.ok (_ && _) = _; rw [hcond]), by simp, by simp⟩
      · rw [ea, eb] at hc; cases hc
    | succ n ih =>
      intro G pa pb out res hc hpa hpb hG ci cv
      obtain ⟨G, rfl⟩ : ∃ G', G = G' + 1 := ⟨G - 1, by omega⟩
      rcases h.and_cases pa pb with ⟨hcond, hn⟩ | ⟨hcond, ja, xa, a, jb, xb, b, ea, eb, ga, gb⟩
      · rw [interFill_nil _ _ hn, Option.some.injEq] at hc
        subst hc
        exact ⟨_, whileM_false (by show Except.ok (_ && _) = _; rw [hcond]), by simp, by simp⟩
      · have ct : (pure (decide (pa < r.alen) && decide (pb < r.blen)) : Except Fault Bool)
          = .ok true := by show Except.ok (_ && _) = _; rw [hcond]
        rw [ea, eb, interFill] at hc
        by_cases he : ja = jb
        · rw [if_pos he, Option.map_eq_some_iff] at hc
          obtain ⟨res', hc', hres⟩ := hc
          obtain ⟨pa', e1, l1, d1⟩ := runP_eq h.a (· + ·) ja F pa 0 hpa (by omega)
          obtain ⟨pb', e2, l2, d2⟩ := runP_eq h.b (· + ·) ja F pb 0 hpb (by omega)
          rw [ea] at d1 e1
          rw [eb] at d2 e2
          rw [← d1, ← d2] at hc'
          cases hcell : cell (runAcc (· + ·) ja 0 ((ja, xa) :: a)).1
              (runAcc (· + ·) ja 0 ((jb, xb) :: b)).1 with
          | none =>
            rw [hcell] at hres
            replace hres : res' = res := hres
            subst hres
            rw [whileM_true (s' := ⟨pa', pb', out.length, storesAt st out⟩) (by exact ct)
              (by simp only [ga, gb, ok_bind, if_pos he, e1, e2, hcell]; rfl)]
            exact ih G pa' pb' out _ hc' l1 l2 (by omega) ci cv
          | some v =>
            rw [hcell] at hres
            replace hres : (ja, v) :: res' = res := hres
            subst hres
            rw [whileM_true (s' := ⟨pa', pb', (out ++ [(ja, v)]).length,
                storesAt st (out ++ [(ja, v)])⟩) (by exact ct)
              (by
                simp only [ga, gb, ok_bind, if_pos he, e1, e2, hcell]
                exact emitP_eq hi hv (by simp at ci; omega) (by simp at cv; omega) rfl rfl)]
            obtain ⟨s, h1, h2, h3⟩ := ih G pa' pb' (out ++ [(ja, v)]) _ hc' l1 l2 (by omega)
              (by simpa using ci) (by simpa using cv)
            exact ⟨s, h1, by simpa using h2, by simpa using h3⟩
        · rw [if_neg he] at hc
          by_cases hl : ja < jb
          · rw [if_pos hl] at hc
            obtain ⟨pa', e1, l1, d1⟩ := skipP_eq h.a ja F pa hpa (by omega)
            rw [ea] at d1
            rw [← d1, ← eb] at hc
            rw [whileM_true (s' := ⟨pa', pb, out.length, storesAt st out⟩) (by exact ct)
              (by simp only [ga, gb, ok_bind, if_neg he, if_pos hl, e1]; rfl)]
            exact ih G pa' pb _ _ hc l1 hpb (by omega) ci cv
          · rw [if_neg hl] at hc
            obtain ⟨pb', e1, l1, d1⟩ := skipP_eq h.b jb F pb hpb (by omega)
            rw [eb] at d1
            rw [← d1, ← ea] at hc
            rw [whileM_true (s' := ⟨pa, pb', out.length, storesAt st out⟩) (by exact ct)
              (by simp only [ga, gb, ok_bind, if_neg he, if_neg hl, e1]; rfl)]
            exact ih G pa pb' _ _ hc hpa l1 (by omega) ci cv
  obtain ⟨s, h1, h2, h3⟩ := key n F 0 0 [] res (by simpa using hc) (by omega) (by omega) hF
    (by simpa using ci) (by simpa using cv)
  unfold interFillP
  refine (congrArg (fun x => x >>= fun (s : FillSt V) => pure (s.dst, s.out)) h1).trans ?_
  rw [ok_bind, h2, h3]
  rfl

end inter
end Lacuna
