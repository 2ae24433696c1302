import Verif.Lemmas.PtrCumulative
import Verif.Lemmas.PtrPrune
import Verif.Lemmas.Diff
import Verif.Model.PtrDiff
/-
The pointer-level difference kernels against the list-level ones.
-/
namespace Lacuna
variable {V : Type}

theorem err_map {α β : Type} (x : Fault) (f : α → β) : (Except.error x : Except Fault α).map f = .error x := rfl
theorem ok_map {α β : Type} (x : α) (f : α → β) : (Except.ok x : Except Fault α).map f = .ok (f x) := rfl

/-! ### the pairs of a row -/

/-- The pairs of a row as read by the kernel. -/
def castPairs (r : Row V) : List (Nat × V) := r.map fun e => (i64ToUsize e.1, e.2)

/-- `pushPairP` on a given entry. -/
def pushPairE (dbg : Bool) (s : List (Nat × V)) (e : Int × V) : Except Fault (List (Nat × V)) :=
  (i64ToUsizeP dbg e.1).map fun c => s ++ [(c, e.2)]

theorem i64ToUsizeP_either (dbg : Bool) (x : Int) :
    i64ToUsizeP dbg x = .error .panic ∧ dbg = true ∧ x < 0 ∨ i64ToUsizeP dbg x = .ok (i64ToUsize x) := by
  unfold i64ToUsizeP
  by_cases h : (dbg && decide (x < 0)) = true
  · rw [if_pos h]
    simp at h
    exact .inl ⟨rfl, h⟩
  · rw [if_neg h]
    exact .inr rfl

theorem pushPairs_cases {dbg : Bool} (r : Row V) : ∀ s : List (Nat × V),
    (r.foldlM (pushPairE dbg) s = .error .panic ∧ dbg = true ∧ ∃ e ∈ r, e.1 < 0) ∨
      r.foldlM (pushPairE dbg) s = .ok (s ++ castPairs r) := by
  induction r with
  | nil => intro s; right; simp [castPairs]; rfl
  | cons e r ih =>
    intro s
    rw [List.foldlM_cons]
    unfold pushPairE
    rcases i64ToUsizeP_either dbg e.1 with ⟨h, h1, h2⟩ | h
    · left
      rw [h]
      exact ⟨rfl, h1, e, by simp, h2⟩
    · rw [h, ok_map, ok_bind]
      rcases ih (s ++ [(i64ToUsize e.1, e.2)]) with ⟨g, g1, x, g2, g3⟩ | g
      · exact .inl ⟨g, g1, x, by simp [g2], g3⟩
      · right
        refine g.trans ?_
        simp [castPairs]

theorem pushPairP_eq {dbg : Bool} {a : Comp V} (h : a.PtrOk) {i : Nat} (hi : i < a.n) {q : Nat}
    (hq : q < (a.row i).length) (s : List (Nat × V)) :
    pushPairP dbg a (a.ptr i + q, s) = (pushPairE dbg s (a.row i)[q]).map fun s => (a.ptr i + q + 1, s) := by
  obtain ⟨r1, r2⟩ := h.reads hi hq
  unfold pushPairP pushPairE
  simp only []
  rw [r1, ok_bind]
  cases hc : i64ToUsizeP dbg (a.row i)[q].1 with
  | error x => rfl
  | ok c => rw [ok_bind, r2, ok_bind]; rfl

theorem rowPairsP_cases {dbg : Bool} {F : Nat} {a : Comp V} (h : a.PtrOk) (hm : a.Machine) {i : Nat} (hi : i < a.n)
    (hF : a.data.length < F) :
    (rowPairsP dbg F a i = .error .panic ∧
      (i64Max < 16 * ((a.row i).length : Int) ∨ dbg = true ∧ ∃ e ∈ a.row i, e.1 < 0)) ∨
      rowPairsP dbg F a i = .ok (castPairs (a.row i)) := by
  have l1 := h.load hm dbg (i := i) (by omega)
  have l2 := h.load hm dbg (i := i + 1) (by omega)
  have hl := h.row_length hi
  have hmono := h.ptr_mono' (i := i) (j := i + 1) (by omega) (by omega)
  have hd := h.ptr_le_data (i := i + 1) (by omega)
  unfold rowPairsP
  rw [← bind_assoc, l1, ok_bind, ← bind_assoc, l2, ok_bind, subUsize_eq hmono, ok_bind]
  unfold withCapP
  by_cases hc : ((16 : Nat) : Int) * ((a.ptr (i + 1) - a.ptr i : Nat) : Int) ≤ i64Max
  · rw [if_pos hc, ok_bind]
    have he : a.ptr (i + 1) = a.ptr i + (a.row i).length := by omega
    rw [he, untilP_fold (a.row i) (fun q hq s => pushPairP_eq h hi hq s) F (by omega)]
    rcases pushPairs_cases (dbg := dbg) (a.row i) [] with ⟨g, g1, g2⟩ | g
    · left
      rw [g]
      exact ⟨rfl, .inr ⟨g1, g2⟩⟩
    · right
      rw [g]
      rfl
  · left
    rw [if_neg hc]
    refine ⟨rfl, .inl ?_⟩
    rw [hl]
    push_cast at hc
    omega

/-! ### the difference of a row -/

section
variable [BEq V] [Zero V] [Add V] [Neg V]

theorem ofOptionP_cases {α : Type} (o : Option α) :
    (ofOptionP o = .error .panic ∧ o = none) ∨ ∃ x, ofOptionP o = .ok x ∧ o = some x := by
  cases o with
  | none => exact .inl ⟨rfl, rfl⟩
  | some x => exact .inr ⟨x, rfl, rfl⟩

theorem diffRowLoopP_cases {dbg : Bool} {sort : List (Nat × V) → List (Nat × V)} (n : Nat) :
    ∀ (cur : List (Nat × V)) (w : Nat), diffRowLoopP dbg sort n cur w = .error .panic ∨
      ∃ o, diffRowLoopP dbg sort n cur w = .ok o ∧ diffRowLoop sort n cur w = some o := by
  induction n with
  | zero => intro cur w; exact .inr ⟨cur, rfl, rfl⟩
  | succ n ih =>
    intro cur w
    unfold diffRowLoopP diffRowLoop
    by_cases h : w = 0 ∨ w = 1
    · rw [if_pos h, if_pos h]
      exact .inr ⟨[], rfl, rfl⟩
    · rw [if_neg h, if_neg h]
      have hm : mulUsize dbg cur.length 2 = .error .panic ∨ ∃ k, mulUsize dbg cur.length 2 = .ok k := by
        unfold mulUsize
        split
        · exact .inr ⟨_, rfl⟩
        · split
          · exact .inl rfl
          · exact .inr ⟨_, rfl⟩
      rcases hm with hm | ⟨k, hm⟩
      · left; rw [hm]; rfl
      · rw [hm, ok_bind]
        have hc : withCapP 16 k = .error .panic ∨ withCapP 16 k = .ok () := by
          unfold withCapP; split
          · exact .inr rfl
          · exact .inl rfl
        rcases hc with hc | hc
        · left; rw [hc]; rfl
        · rw [hc, ok_bind]
          rcases ofOptionP_cases (combinePairs sort (diffExpand (w - 1) cur)) with ⟨g, -⟩ | ⟨x, g, g'⟩
          · left; rw [g]; rfl
          · rw [g, ok_bind, g', Option.bind_some]
            by_cases he : x.isEmpty = true
            · rw [if_pos he, if_pos he]
              exact .inr ⟨x, rfl, rfl⟩
            · rw [if_neg he, if_neg he]
              exact ih x (w - 1)

theorem diffRowPairsP_cases {dbg : Bool} {sort : List (Nat × V) → List (Nat × V)} (pairs : List (Nat × V))
    (w n : Nat) : diffRowPairsP dbg sort pairs w n = .error .panic ∨
      ∃ o, diffRowPairsP dbg sort pairs w n = .ok o ∧ diffRowPairs sort pairs w n = some o := by
  unfold diffRowPairsP diffRowPairs
  by_cases h : n = 0 ∨ w = 0
  · rw [if_pos h, if_pos h]
    exact .inr ⟨_, rfl, rfl⟩
  · rw [if_neg h, if_neg h]
    exact diffRowLoopP_cases n pairs w

/-- A row of the result is a panic or the list-level row, whatever the sort and the indices. -/
theorem diffRowP_cases {dbg : Bool} {F : Nat} {sort : List (Nat × V) → List (Nat × V)} {n : Nat} {a : Comp V}
    (h : a.PtrOk) (hm : a.Machine) {i : Nat} (hi : i < a.n) (hF : a.data.length < F) :
    diffRowP dbg F sort n a i = .error .panic ∨
      ∃ o, diffRowP dbg F sort n a i = .ok o ∧ diffRowPairs sort (castPairs (a.row i)) a.m n = some o := by
  unfold diffRowP
  rcases rowPairsP_cases (dbg := dbg) h hm hi hF with ⟨g, -⟩ | g
  · left; rw [g]; rfl
  · rw [g, ok_bind]
    exact diffRowPairsP_cases _ _ _

/-! #### rows that fit into memory do not panic -/

omit [Neg V] in
theorem mergeRun_sorted (ts : List (Nat × V)) : ∀ (c : Nat) (acc : V),
    (∀ e ∈ ts, c ≤ e.1) → ts.Pairwise (fun x y => x.1 ≤ y.1) →
    ((mergeRun c acc ts).map Prod.fst).Pairwise (· < ·) ∧
      (∀ e ∈ mergeRun c acc ts, e.1 = c ∨ ∃ e' ∈ ts, e'.1 = e.1) := by
  induction ts with
  | nil =>
    intro c acc _ _
    unfold mergeRun
    refine ⟨by split <;> simp, ?_⟩
    intro e he
    split at he
    · simp at he; left; rw [he]
    · simp at he
  | cons e ts ih =>
    intro c acc hle hs
    have hs' := List.pairwise_cons.1 hs
    by_cases hc : (e.1 == c) = true
    · have hce : e.1 = c := by simpa using hc
      rw [mergeRun, if_pos hc]
      obtain ⟨i1, i3⟩ := ih c (acc + e.2) (fun x hx => hle x (by simp [hx])) hs'.2
      refine ⟨i1, fun x hx => ?_⟩
      rcases i3 x hx with h | ⟨y, hy, h⟩
      · exact .inl h
      · exact .inr ⟨y, by simp [hy], h⟩
    · have hce : e.1 ≠ c := by simpa using hc
      have hlt : c < e.1 := Nat.lt_of_le_of_ne (hle e (by simp)) (Ne.symm hce)
      rw [mergeRun, if_neg hc]
      obtain ⟨i1, i3⟩ := ih e.1 e.2 (fun x hx => hs'.1 x hx) hs'.2
      have hge : ∀ x ∈ mergeRun e.1 e.2 ts, e.1 ≤ x.1 := by
        intro x hx
        rcases i3 x hx with h | ⟨y, hy, h⟩
        · omega
        · have := hs'.1 y hy; omega
      refine ⟨?_, ?_⟩
      · rw [List.map_append, List.pairwise_append]
        refine ⟨by split <;> simp, i1, fun x hx y hy => ?_⟩
        obtain ⟨z, hz, rfl⟩ := List.mem_map.1 hy
        have := hge z hz
        split at hx
        · simp at hx; omega
        · simp at hx
      · intro x hx
        rcases List.mem_append.1 hx with hx | hx
        · split at hx
          · simp at hx; left; rw [hx]
          · simp at hx
        · rcases i3 x hx with h | ⟨y, hy, h⟩
          · exact .inr ⟨e, by simp, h.symm⟩
          · exact .inr ⟨y, by simp [hy], h⟩

omit [Neg V] in
theorem combinePairs_length {sort : List (Nat × V) → List (Nat × V)} (hsort : IsSort sort) {pairs : List (Nat × V)}
    {w : Nat} (hw : ∀ e ∈ pairs, e.1 < w) :
    ∃ out, combinePairs sort pairs = some out ∧ out.length ≤ w ∧ ∀ e ∈ out, e.1 < w := by
  by_cases hp : pairs = []
  · subst hp
    exact ⟨[], rfl, by simp, by simp⟩
  obtain ⟨e, ts, he, h⟩ := combinePairs_eq hsort hp
  obtain ⟨hperm, hs⟩ := hsort pairs
  rw [he] at hperm hs
  have hs' := List.pairwise_cons.1 hs
  obtain ⟨i1, i3⟩ := mergeRun_sorted ts e.1 e.2 (fun x hx => hs'.1 x hx) hs'.2
  have hb : ∀ x ∈ mergeRun e.1 e.2 ts, x.1 < w := by
    intro x hx
    rcases i3 x hx with h | ⟨y, hy, h⟩
    · rw [h]; exact hw e (hperm.mem_iff.1 (by simp))
    · rw [← h]; exact hw y (hperm.mem_iff.1 (by simp [hy]))
  exact ⟨_, h, noRep_of_sorted i1 hb, hb⟩

theorem diffRowLoopP_ok {dbg : Bool} {sort : List (Nat × V) → List (Nat × V)} (hsort : IsSort sort) (n : Nat) :
    ∀ (cur : List (Nat × V)) (w : Nat), (∀ e ∈ cur, e.1 < w) → 32 * (cur.length : Int) ≤ i64Max →
      32 * (w : Int) ≤ i64Max → ∃ o, diffRowLoopP dbg sort n cur w = .ok o ∧ (0 < n → o.length ≤ w) ∧
        ∀ e ∈ o, e.1 < w := by
  induction n with
  | zero => intro cur w hc _ _; exact ⟨cur, rfl, fun h => absurd h (by omega), hc⟩
  | succ n ih =>
    intro cur w hc hl hw
    unfold diffRowLoopP
    by_cases h : w = 0 ∨ w = 1
    · rw [if_pos h]
      exact ⟨[], rfl, fun _ => by simp, by simp⟩
    · rw [if_neg h]
      obtain ⟨x, x1, x2, x3⟩ := combinePairs_length hsort (diffExpand_lt hc)
      have hmu : cur.length * 2 ≤ usizeMax := by unfold i64Max at hl; unfold usizeMax; omega
      have hcap : withCapP 16 (cur.length * 2) = .ok () := by
        unfold withCapP
        rw [if_pos (by push_cast; omega)]
      rw [mulUsize_eq hmu, ok_bind, hcap, ok_bind, x1]
      have hof : ofOptionP (some x) = .ok x := rfl
      rw [hof, ok_bind]
      by_cases he : x.isEmpty = true
      · rw [if_pos he]
        exact ⟨x, rfl, fun _ => by omega, fun e h => by have := x3 e h; omega⟩
      · rw [if_neg he]
        obtain ⟨o, o1, o2, o3⟩ := ih x (w - 1) x3 (by omega) (by omega)
        refine ⟨o, o1, fun _ => ?_, fun e h => by have := o3 e h; omega⟩
        rcases Nat.eq_zero_or_pos n with rfl | hn
        · cases o1; omega
        · have := o2 hn; omega

theorem diffRowPairsP_ok {dbg : Bool} {sort : List (Nat × V) → List (Nat × V)} (hsort : IsSort sort)
    {pairs : List (Nat × V)} {w n : Nat} (hc : ∀ e ∈ pairs, e.1 < w) (hl : 32 * (pairs.length : Int) ≤ i64Max)
    (hw : 32 * (w : Int) ≤ i64Max) : ∃ o, diffRowPairsP dbg sort pairs w n = .ok o ∧
      o.length ≤ max w pairs.length ∧ ∀ e ∈ o, e.1 < w := by
  unfold diffRowPairsP
  by_cases h : n = 0 ∨ w = 0
  · rw [if_pos h]
    refine ⟨_, rfl, ?_, fun e he => hc e (List.mem_filter.1 he).1⟩
    have : (pairs.filter fun e => e.2 != 0).length ≤ pairs.length := List.length_filter_le _ _
    omega
  · rw [if_neg h]
    obtain ⟨o, o1, o2, o3⟩ := diffRowLoopP_ok (dbg := dbg) hsort n pairs w hc hl hw
    exact ⟨o, o1, by have := o2 (by omega); omega, o3⟩

theorem diffRowP_ok {dbg : Bool} {F : Nat} {sort : List (Nat × V) → List (Nat × V)} (hsort : IsSort sort) {n : Nat}
    {a : Comp V} (h : a.PtrOk) (hm : a.Machine) {i : Nat} (hi : i < a.n) (hF : a.data.length < F)
    (hb : ∀ e ∈ a.row i, 0 ≤ e.1 ∧ e.1 < a.m) (hl : 32 * ((a.row i).length : Int) ≤ i64Max)
    (hw : 32 * (a.m : Int) ≤ i64Max) :
    ∃ o, diffRowP dbg F sort n a i = .ok o ∧ o.length ≤ max a.m (a.row i).length ∧ ∀ e ∈ o, e.1 < a.m := by
  unfold diffRowP
  rcases rowPairsP_cases (dbg := dbg) h hm hi hF with ⟨-, g | ⟨-, e, he, g⟩⟩ | g
  · omega
  · have := (hb e he).1; omega
  · rw [g, ok_bind]
    obtain ⟨o, o1, o2, o3⟩ := diffRowPairsP_ok (dbg := dbg) (n := n) hsort (pairs := castPairs (a.row i)) (w := a.m)
      (by
        intro e he
        obtain ⟨x, hx, rfl⟩ := List.mem_map.1 he
        have := hb x hx
        show i64ToUsize x.1 < a.m
        rw [i64ToUsize_of_nonneg this.1 (by omega)]
        omega) (by simpa [castPairs] using hl) hw
    exact ⟨o, o1, by simpa [castPairs] using o2, o3⟩

end

/-! ### the two passes -/

theorem tryI64P_cases (x : Nat) :
    (tryI64P x = .error .panic ∧ i64Max < (x : Int)) ∨ (tryI64P x = .ok (x : Int) ∧ (x : Int) ≤ i64Max) := by
  unfold tryI64P
  by_cases h : (x : Int) ≤ i64Max
  · rw [if_pos h]; exact .inr ⟨rfl, h⟩
  · rw [if_neg h]; exact .inl ⟨rfl, by omega⟩

theorem tryPtrP_cases {dbg : Bool} (cs : List Nat) : ∀ (s : Nat), (dbg = true ∨ ((s + cs.sum : Nat) : Int) ≤ i64Max) →
    (tryPtrP dbg s cs = .error .panic ∧ i64Max < ((s + cs.sum : Nat) : Int)) ∨
      tryPtrP dbg s cs = .ok ((ptrFrom s cs).map Int.ofNat) ∧ ((s : Int) ≤ i64Max → ((s + cs.sum : Nat) : Int) ≤ i64Max) := by
  induction cs with
  | nil => intro s _; exact .inr ⟨rfl, by simp⟩
  | cons c cs ih =>
    intro s hd
    have hsum : s + (c :: cs).sum = s + c + cs.sum := by simp; omega
    rw [hsum] at hd ⊢
    rw [tryPtrP]
    rcases tryI64P_cases c with ⟨h, h'⟩ | ⟨h, h'⟩
    · left
      rw [h]
      exact ⟨rfl, by push_cast; omega⟩
    · rw [h, ok_bind]
      by_cases hs : ((s + c : Nat) : Int) ≤ i64Max
      · rw [addI64_eq (by omega) (by omega) (by push_cast at hs; exact hs), ok_bind]
        have e : (s : Int) + (c : Int) = ((s + c : Nat) : Int) := by push_cast; rfl
        rw [e]
        rcases ih (s + c) hd with ⟨g, g'⟩ | ⟨g, g'⟩
        · left; rw [g]; exact ⟨rfl, g'⟩
        · right; rw [g]; exact ⟨rfl, fun _ => g' hs⟩
      · left
        have hdbg : dbg = true := by
          rcases hd with hd | hd
          · exact hd
          · omega
        have : addI64 dbg (s : Int) (c : Int) = .error .panic := by
          unfold addI64
          rw [if_neg (by push_cast at hs; omega), if_pos hdbg]
        rw [this]
        exact ⟨rfl, by push_cast at hs ⊢; omega⟩

theorem diffPlanP_cases {dbg : Bool} {n : Nat} {counts : List Nat} (hn : counts.length = n)
    (hl : 8 * ((n : Int) + 1) ≤ i64Max) (hT : dbg = true ∨ (counts.sum : Int) ≤ i64Max) :
    (diffPlanP dbg n counts = .error .panic ∧ i64Max < 8 * (counts.sum : Int)) ∨
      (diffPlanP dbg n counts = .ok (prefixPtr counts, counts.sum) ∧ 8 * (counts.sum : Int) ≤ i64Max) := by
  have hn1 : n + 1 ≤ usizeMax := by unfold i64Max at hl; unfold usizeMax; omega
  unfold diffPlanP
  rw [addUsize_eq hn1, ok_bind, zerosP_ok (by push_cast; omega), ok_bind]
  rcases tryPtrP_cases (dbg := dbg) counts 0 (by simpa using hT) with ⟨h, h'⟩ | ⟨h, h'⟩
  · left
    have h : tryPtrP dbg 0 counts = .error .panic := h
    rw [h]
    exact ⟨rfl, by simp at h'; omega⟩
  · have hs : (counts.sum : Int) ≤ i64Max := by
      have := h' (by decide)
      simpa using this
    have h : tryPtrP dbg 0 counts = .ok (prefixPtr counts) := h
    rw [h, ok_bind]
    have hlen : n < (prefixPtr counts).length := by simp; omega
    have hg := prefixPtr_getD counts n (by omega)
    rw [List.take_of_length_le (by omega), List.getD_eq_getElem?_getD, List.getElem?_eq_getElem hlen] at hg
    have hg : (prefixPtr counts)[n] = (counts.sum : Int) := hg
    rw [index_eq hlen, ok_bind, hg, i64ToUsizeP_eq (by omega) hs, ok_bind]
    have e : ((counts.sum : Nat) : Int).toNat = counts.sum := by simp
    rw [e]
    by_cases hz : 8 * (counts.sum : Int) ≤ i64Max
    · right
      rw [zerosP_ok hz]
      exact ⟨rfl, hz⟩
    · left
      unfold zerosP
      rw [if_neg hz]
      exact ⟨rfl, by omega⟩

/-- The column of a pair as stored. -/
def castBack (l : List (Nat × V)) : Row V := l.map fun e => ((e.1 : Int), e.2)

theorem diffPuts_cases {dbg : Bool} {total start : Nat} (ht : (total : Int) ≤ i64Max) (l : List (Nat × V)) :
    ∀ k, start + k + l.length ≤ total →
    ((l.zipIdx k).mapM (diffPutP dbg total start) = .error .panic ∧ l.mapM colToI64? = none) ∨
      (∃ evs, (l.zipIdx k).mapM (diffPutP dbg total start) = .ok evs ∧
        evs.map Prod.fst = lineWrites (start + k) ((castBack l).map Prod.fst) ∧
        evs.map Prod.snd = lineWrites (start + k) ((castBack l).map Prod.snd) ∧ l.mapM colToI64? = some (castBack l)) := by
  induction l with
  | nil => intro k _; exact .inr ⟨[], rfl, rfl, rfl, rfl⟩
  | cons e l ih =>
    intro k hk
    simp only [List.length_cons] at hk
    have hu : start + k ≤ usizeMax := by unfold i64Max at ht; unfold usizeMax; omega
    have hadd : MutPtr.add ⟨total, 0⟩ (start + k) = .ok ⟨total, start + k⟩ := by
      unfold MutPtr.add
      simp only [Nat.zero_add]
      rw [if_pos (by omega)]
    have hwr : ∀ {α : Type} (x : α), MutPtr.write ⟨total, start + k⟩ x = .ok (start + k, x) := by
      intro α x
      unfold MutPtr.write
      simp only []
      rw [if_pos (by omega)]
    rw [List.zipIdx_cons, List.mapM_cons, List.mapM_cons]
    have hput : diffPutP dbg total start (e, k) = (tryI64P e.1).map fun c => ((start + k, c), (start + k, e.2)) := by
      unfold diffPutP
      simp only []
      rw [addUsize_eq hu, ok_bind, hadd, ok_bind]
      cases hc : tryI64P e.1 with
      | error x => rfl
      | ok c => rw [ok_bind, hwr, ok_bind, ok_bind, hadd, ok_bind, hwr, ok_bind]; rfl
    rw [hput]
    rcases tryI64P_cases e.1 with ⟨h, h'⟩ | ⟨h, h'⟩
    · left
      rw [h, err_map]
      refine ⟨rfl, ?_⟩
      unfold colToI64?
      rw [if_neg (by omega)]
      rfl
    · rw [h, ok_map, ok_bind]
      have hcol : colToI64? e = some ((e.1 : Int), e.2) := by
        unfold colToI64?; rw [if_pos h']
      rw [hcol]
      rcases ih (k + 1) (by omega) with ⟨g, g'⟩ | ⟨evs, g, g1, g2, g3⟩
      · left
        rw [g, g']
        exact ⟨rfl, rfl⟩
      · right
        rw [g, g3]
        refine ⟨_, rfl, ?_, ?_, rfl⟩
        · rw [List.map_cons, g1]; rfl
        · rw [List.map_cons, g2]; rfl

/-- Stores of consecutive rows in disjoint blocks give the concatenated rows. -/
theorem assemble_rows [Zero V] {α : Type} {n : Nat} {g : Nat → Row V} {counts : List Nat} {mk : List Int → List V → α}
    (hc : counts = (List.range n).map fun i => (g i).length) (o : Except Fault α) :
    Assemble counts.sum ((List.range n).map fun i => storesAt (counts.take i).sum (g i)) mk o ↔
      o = .ok (mk (((List.range n).map g).flatten.map Prod.fst) (((List.range n).map g).flatten.map Prod.snd)) := by
  have hlens : counts = ((List.range n).map g).map List.length := by rw [hc, List.map_map]; rfl
  have hcl : counts.length = n := by rw [hc]; simp
  have hflat : ∀ {β : Type} (f : Int × V → β),
      ((List.range n).flatMap fun i => lineWrites (counts.take i).sum ((g i).map f))
        = (lineWrites 0 ((List.range n).map g).flatten).map fun w => (w.1, f w.2) := by
    intro β f
    have e0 : (((List.range n).map g).map (·.map f)).map List.length = counts := by rw [hc]; simp
    have e1 : (lineWrites 0 ((List.range n).map g).flatten).map (fun w => (w.1, f w.2))
        = lineWrites 0 (((List.range n).map g).map (·.map f)).flatten := by
      rw [← List.map_flatten]
      exact lineWrites_map' 0 _ f
    rw [e1, ← fillWrites_eq, e0, List.map_map, fillWrites_range _ _ _ (by simp; omega), List.flatMap_def,
      List.flatMap_def]
    refine congrArg List.flatten (List.map_congr_left fun i hi => ?_)
    have := List.mem_range.1 hi
    rw [ptrFrom_getD 0 counts i (by omega), Nat.zero_add]
    rfl
  refine assemble_iff (ws := lineWrites 0 ((List.range n).map g).flatten) (flat := ((List.range n).map g).flatten)
    (List.Perm.of_eq ?_) (List.Perm.of_eq ?_) (List.Perm.refl _) ?_ o
  · rw [← hflat Prod.fst, List.flatMap_map]; rfl
  · rw [← hflat Prod.snd, List.flatMap_map]; rfl
  · rw [List.length_flatten, hlens]

/-- The fill of one row. -/
theorem diffFillP_cases {dbg : Bool} {row : Nat → Except Fault (List (Nat × V))} {g : Nat → List (Nat × V)}
    {n : Nat} (hrow : ∀ i, i < n → row i = .ok (g i)) {counts : List Nat}
    (hc : counts = (List.range n).map fun i => (g i).length) (hs : 8 * (counts.sum : Int) ≤ i64Max) {i : Nat}
    (hi : i < n) :
    (diffFillP dbg row (prefixPtr counts) counts.sum i = .error .panic ∧ (g i).mapM colToI64? = none) ∨
      (diffFillP dbg row (prefixPtr counts) counts.sum i = .ok (storesAt (counts.take i).sum (castBack (g i))) ∧
        (g i).mapM colToI64? = some (castBack (g i))) := by
  have hcl : counts.length = n := by rw [hc]; simp
  have hlen : i < (prefixPtr counts).length := by simp; omega
  have hg := prefixPtr_getD counts i (by omega)
  rw [List.getD_eq_getElem?_getD, List.getElem?_eq_getElem hlen] at hg
  have hg : (prefixPtr counts)[i] = ((counts.take i).sum : Int) := hg
  have hsp : (counts.take (i + 1)).sum + (counts.drop (i + 1)).sum = counts.sum := by
    rw [← List.sum_append, List.take_append_drop]
  have hst : (counts.take (i + 1)).sum = (counts.take i).sum + (g i).length := by
    rw [List.take_succ_eq_append_getElem (by omega), List.sum_append]
    simp [hc]
  unfold diffFillP
  rw [hrow i hi, ok_bind, index_eq hlen, ok_bind, hg, i64ToUsizeP_eq (by omega) (by omega), ok_bind]
  have e : (((counts.take i).sum : Nat) : Int).toNat = (counts.take i).sum := by simp
  rw [e]
  rcases diffPuts_cases (dbg := dbg) (total := counts.sum) (start := (counts.take i).sum) (by omega) (g i) 0
    (by omega) with ⟨h, h'⟩ | ⟨evs, h, h1, h2, h3⟩
  · left
    rw [h]
    exact ⟨rfl, h'⟩
  · right
    rw [h, ok_bind, h1, h2]
    exact ⟨rfl, h3⟩

/-- A parallel pass whose iterations return or panic. -/
theorem parCollect_panicOr {α : Type} [Inhabited α] {n : Nat} {f : Nat → Except Fault α}
    (h : ∀ i, i < n → PanicOr (f i)) {o : Except Fault (List α)} (ho : ParCollect n f o) :
    (o = .error .panic ∧ ∃ i, i < n ∧ f i = .error .panic) ∨
      ∃ g : Nat → α, (∀ i, i < n → f i = .ok (g i)) ∧ o = .ok ((List.range n).map g) := by
  cases o with
  | error e =>
    obtain ⟨i, hi, he⟩ := ho
    left
    rcases h i hi with h | ⟨x, h⟩
    · rw [h] at he
      cases he
      exact ⟨rfl, i, hi, h⟩
    · rw [h] at he; cases he
  | ok l =>
    right
    have ho : (List.range n).map f = l.map .ok := ho
    have hl : l.length = n := by have := congrArg List.length ho; simpa using this.symm
    have key : ∀ i (hi : i < n), f i = .ok (l[i]'(by omega)) := by
      intro i hi
      have h1 : ((List.range n).map f)[i]? = (l.map .ok)[i]? := by rw [ho]
      simpa [hi, hl] using h1
    refine ⟨fun i => l.getD i default, fun i hi => ?_, ?_⟩
    · simp only []
      rw [key i hi, List.getD_eq_getElem?_getD, List.getElem?_eq_getElem (by omega)]; rfl
    · congr 1
      apply List.ext_getElem
      · simp [hl]
      · intro i h1 h2
        simp [h1]

theorem ofRows_range {m n : Nat} {g : Nat → Row V} {counts : List Nat}
    (hc : counts = (List.range n).map fun i => (g i).length) :
    (⟨n, m, prefixPtr counts, ((List.range n).map g).flatten.map Prod.fst,
      ((List.range n).map g).flatten.map Prod.snd⟩ : Comp V) = Comp.ofRows m ((List.range n).map g) := by
  unfold Comp.ofRows
  congr 1
  · simp
  · rw [hc, List.map_map]; rfl

/-- Both passes when every row returns and the result fits. -/
theorem diffPasses_ok [Zero V] {dbg : Bool} {row : Nat → Except Fault (List (Nat × V))} {g : Nat → List (Nat × V)}
    {n m : Nat} (hrow : ∀ i, i < n → row i = .ok (g i)) (hl : 8 * ((n : Int) + 1) ≤ i64Max)
    (hs : 8 * ((((List.range n).map fun i => (g i).length).sum : Nat) : Int) ≤ i64Max)
    (hcol : ∀ i, i < n → (g i).mapM colToI64? = some (castBack (g i))) (out : Except Fault (Comp V)) :
    DiffPassesPtr dbg row n m out ↔ out = .ok (Comp.ofRows m ((List.range n).map fun i => castBack (g i))) := by
  generalize hC : (List.range n).map (fun i => (g i).length) = counts at hs
  have hC' : counts = (List.range n).map fun i => (castBack (g i)).length := by
    rw [← hC]; simp [castBack]
  have h1 : ∀ o, ParCollect n (fun i => (row i).map List.length) o ↔ o = .ok counts := by
    intro o
    rw [← hC]
    exact parCollect_ok (fun i hi => by rw [hrow i hi, ok_map]) o
  have h2 : diffPlanP dbg n counts = .ok (prefixPtr counts, counts.sum) := by
    rcases diffPlanP_cases (dbg := dbg) (n := n) (counts := counts) (by rw [← hC]; simp) hl (.inr (by omega)) with h | h
    · omega
    · exact h.1
  have h3 : ∀ o, ParCollect n (diffFillP dbg row (prefixPtr counts) counts.sum) o ↔
      o = .ok ((List.range n).map fun i => storesAt (counts.take i).sum (castBack (g i))) := by
    intro o
    refine parCollect_ok (fun i hi => ?_) o
    rcases diffFillP_cases (dbg := dbg) hrow hC.symm hs hi with h | h
    · rw [hcol i hi] at h
      exact absurd h.2 (by simp)
    · exact h.1
  have h4 := fun o => assemble_rows (V := V) (n := n) (g := fun i => castBack (g i)) (counts := counts)
    (mk := fun ix vs => (⟨n, m, prefixPtr counts, ix, vs⟩ : Comp V)) hC' o
  rw [ofRows_range hC'] at h4
  unfold DiffPassesPtr
  constructor
  · rintro ⟨oc, hoc, h⟩
    rw [(h1 oc).1 hoc] at h
    simp only [h2] at h
    obtain ⟨oe, hoe, h⟩ := h
    rw [(h3 oe).1 hoe] at h
    exact (h4 out).1 h
  · intro h
    refine ⟨_, (h1 _).2 rfl, ?_⟩
    simp only [h2]
    exact ⟨_, (h3 _).2 rfl, (h4 out).2 h⟩

/-- Both passes when every row returns or panics: a panic or the result. -/
theorem diffPasses_cases [Zero V] {dbg : Bool} {row : Nat → Except Fault (List (Nat × V))} {n m : Nat}
    (hrow : ∀ i, i < n → PanicOr (row i)) (hl : 8 * ((n : Int) + 1) ≤ i64Max)
    (hT : dbg = true ∨ ∀ g : Nat → List (Nat × V), (∀ i, i < n → row i = .ok (g i)) →
      ((((List.range n).map fun i => (g i).length).sum : Nat) : Int) ≤ i64Max)
    {out : Except Fault (Comp V)} (h : DiffPassesPtr dbg row n m out) :
    out = .error .panic ∨ ∃ g : Nat → List (Nat × V), (∀ i, i < n → row i = .ok (g i)) ∧
      8 * ((((List.range n).map fun i => (g i).length).sum : Nat) : Int) ≤ i64Max ∧
      (∀ i, i < n → (g i).mapM colToI64? = some (castBack (g i))) ∧
      out = .ok (Comp.ofRows m ((List.range n).map fun i => castBack (g i))) := by
  have h' := h
  obtain ⟨oc, hoc, h⟩ := h
  by_cases hall : ∀ i, i < n → ∃ x, row i = .ok x
  · have hg : ∃ g : Nat → List (Nat × V), ∀ i, i < n → row i = .ok (g i) := by
      refine ⟨fun i => if hi : i < n then (hall i hi).choose else [], fun i hi => ?_⟩
      simp only [dif_pos hi]
      exact (hall i hi).choose_spec
    obtain ⟨g, hg⟩ := hg
    have hoc' : oc = .ok ((List.range n).map fun i => (g i).length) :=
      (parCollect_ok (fun i hi => by rw [hg i hi, ok_map]) oc).1 hoc
    rw [hoc'] at h
    simp only [] at h
    rcases diffPlanP_cases (dbg := dbg) (n := n) (counts := (List.range n).map fun i => (g i).length) (by simp) hl
      (hT.imp id fun hT => hT g hg) with ⟨p, -⟩ | ⟨p, hs⟩
    · rw [p] at h
      exact .inl h
    · rw [p] at h
      obtain ⟨oe, hoe, h⟩ := h
      by_cases hcol : ∀ i, i < n → (g i).mapM colToI64? = some (castBack (g i))
      · exact .inr ⟨g, hg, hs, hcol, (diffPasses_ok hg hl hs hcol out).1 h'⟩
      · left
        rcases parCollect_panicOr (fun i hi => by
          rcases diffFillP_cases (dbg := dbg) hg rfl hs hi with h | h
          · exact .inl h.1
          · exact .inr ⟨_, h.1⟩) hoe with ⟨ho, -⟩ | ⟨f, hf, -⟩
        · rw [ho] at h; exact h
        · exfalso
          apply hcol
          intro i hi
          rcases diffFillP_cases (dbg := dbg) hg rfl hs hi with h | h
          · have := hf i hi
            rw [h.1] at this
            cases this
          · exact h.2
  · left
    rcases parCollect_panicOr (fun i hi => by
      rcases hrow i hi with h | ⟨x, h⟩
      · exact .inl (by rw [h, err_map])
      · exact .inr ⟨_, by rw [h, ok_map]⟩) hoc with ⟨ho, -⟩ | ⟨f, hf, -⟩
    · rw [ho] at h; exact h
    · exfalso
      apply hall
      intro i hi
      rcases hrow i hi with h | h
      · have := hf i hi
        rw [h, err_map] at this
        cases this
      · exact h

end Lacuna
