import Verif.Model.PtrElementwise
import Verif.Lemmas.Elementwise
namespace Lacuna
variable {V : Type}

theorem ok_bind {α β : Type} (x : α) (f : α → Except Fault β) :
    (Except.ok x >>= f : Except Fault β) = f x := rfl

theorem whileM_true {σ : Type} {c : σ → Except Fault Bool} {b : σ → Except Fault σ} {n : Nat}
    {s s' : σ} (hc : c s = .ok true) (hb : b s = .ok s') :
    whileM c b (n + 1) s = whileM c b n s' := by
  rw [whileM, hc, ok_bind, if_pos rfl, hb, ok_bind]

theorem whileM_false {σ : Type} {c : σ → Except Fault Bool} {b : σ → Except Fault σ} {n : Nat}
    {s : σ} (hc : c s = .ok false) : whileM c b (n + 1) s = .ok s := by
  rw [whileM, hc]
  rfl

theorem Ptr.get_eq {α : Type} {p : Ptr α} {k : Nat} (h : p.off + k < p.buf.length) :
    p.get k = .ok p.buf[p.off + k] := by
  unfold Ptr.get Ptr.add Ptr.read
  rw [if_pos (Nat.le_of_lt h), ok_bind]
  simp only [List.getElem?_eq_getElem h]

theorem MutPtr.put_eq {α : Type} {p : MutPtr} {k : Nat} {x : α} (h : p.off + k < p.cap) :
    p.put k x = .ok (p.off + k, x) := by
  unfold MutPtr.put MutPtr.add MutPtr.write
  rw [if_pos (Nat.le_of_lt h), ok_bind, if_pos h]

theorem index_eq {α : Type} {v : List α} {i : Nat} (h : i < v.length) : index v i = .ok v[i] := by
  unfold index; rw [List.getElem?_eq_getElem h]

theorem getUnchecked_eq {α : Type} {v : List α} {i : Nat} (h : i < v.length) :
    getUnchecked v i = .ok v[i] := by
  unfold getUnchecked; rw [List.getElem?_eq_getElem h]

/-! ### machine integers -/

theorem asUsize_eq {x : Int} (h0 : 0 ≤ x) (h1 : x ≤ i64Max) : asUsize x = x.toNat := by
  unfold asUsize; unfold i64Max at h1; congr 1; omega

theorem i64ToUsizeP_eq {dbg : Bool} {x : Int} (h0 : 0 ≤ x) (h1 : x ≤ i64Max) :
    i64ToUsizeP dbg x = .ok x.toNat := by
  unfold i64ToUsizeP
  rw [asUsize_eq h0 h1, if_neg (by simp; omega)]

theorem wrapI64_eq {x : Int} (h0 : 0 ≤ x) (h1 : x ≤ i64Max) : wrapI64 x = x := by
  unfold i64Max at h1
  unfold wrapI64
  omega

theorem usizeToI64P_eq {dbg : Bool} {x : Nat} (h1 : (x : Int) ≤ i64Max) :
    usizeToI64P dbg x = .ok (x : Int) := by
  unfold usizeToI64P
  rw [if_neg (by simp; omega), wrapI64_eq (by omega) h1]

theorem subUsize_eq {dbg : Bool} {a b : Nat} (h : b ≤ a) : subUsize dbg a b = .ok (a - b) := by
  unfold subUsize; rw [if_pos h]

theorem addI64_eq {dbg : Bool} {a b : Int} (h0 : 0 ≤ a) (h1 : 0 ≤ b) (h : a + b ≤ i64Max) :
    addI64 dbg a b = .ok (a + b) := by
  unfold addI64; rw [if_pos ⟨by omega, h⟩]

theorem ptrLoopP_eq {dbg : Bool} (cs : List Nat) (s : Nat)
    (h : ((s + cs.sum : Nat) : Int) ≤ i64Max) :
    ptrLoopP dbg s cs = .ok ((ptrFrom s cs).map Int.ofNat) := by
  induction cs generalizing s with
  | nil => rfl
  | cons c cs ih =>
    simp only [List.sum_cons] at h
    rw [ptrLoopP, usizeToI64P_eq (by push_cast at h ⊢; omega)]
    show (do let t ← addI64 dbg s c; let rest ← ptrLoopP dbg t cs; pure ((s : Int) :: rest)) = _
    rw [addI64_eq (by omega) (by omega) (by push_cast at h; omega)]
    show (do let rest ← ptrLoopP dbg ((s : Int) + c) cs; pure ((s : Int) :: rest)) = _
    rw [show (s : Int) + c = ((s + c : Nat) : Int) by push_cast; rfl,
      ih (s + c) (by rw [Nat.add_assoc]; exact h)]
    rfl

/-! ### segments -/

/-- The pointers `idx`, `val` give access to the entries of `r`. -/
structure SegOk (idx : Ptr Int) (val : Ptr V) (len : Nat) (r : Row V) : Prop where
  length : r.length = len
  idx_get : ∀ k (h : k < r.length), idx.get k = .ok (r[k]).1
  val_get : ∀ k (h : k < r.length), val.get k = .ok (r[k]).2

theorem runP_eq {idx : Ptr Int} {val : Ptr V} {len : Nat} {r : Row V} (h : SegOk idx val len r)
    (f : V → V → V) (j : Int) (F p : Nat) (acc : V) (hp : p ≤ len) (hF : len - p < F) :
    ∃ p', runP F f idx val len j p acc = .ok (p', (runAcc f j acc (r.drop p)).1) ∧ p' ≤ len ∧
      r.drop p' = (runAcc f j acc (r.drop p)).2 := by
  have hl := h.length
  induction F generalizing p acc with
  | zero => omega
  | succ F ih =>
    by_cases hlt : p < len
    · have hd : r.drop p = r[p]'(by omega) :: r.drop (p + 1) := List.drop_eq_getElem_cons (by omega)
      have hg := h.idx_get p (by omega)
      have hv := h.val_get p (by omega)
      rcases hrp : r[p]'(by omega) with ⟨k, x⟩
      rw [hrp] at hd hg hv
      by_cases hk : k = j
      · obtain ⟨p', h1, h2, h3⟩ := ih (p + 1) (f acc x) (by omega) (by omega)
        refine ⟨p', ?_, h2, ?_⟩
        · unfold runP at h1 ⊢
          rw [whileM_true (s' := (p + 1, f acc x)), h1, hd, runAcc, if_pos hk]
          · simp only [andThen, hlt, decide_true, if_true, hg]
            show Except.ok (decide (k = j)) = _
            simp [hk]
          · simp only [hv]; rfl
        · rw [h3, hd, runAcc, if_pos hk]
      · refine ⟨p, ?_, hp, ?_⟩
        · unfold runP
          rw [whileM_false, hd, runAcc, if_neg hk]
          simp only [andThen, hlt, decide_true, if_true, hg]
          show Except.ok (decide (k = j)) = _
          simp [hk]
        · rw [hd, runAcc, if_neg hk]
    · have hd : r.drop p = [] := List.drop_eq_nil_of_le (by omega)
      refine ⟨p, ?_, hp, ?_⟩
      · unfold runP
        rw [whileM_false, hd, runAcc]
        simp only [andThen, hlt, decide_false]
        rfl
      · rw [hd, runAcc]

theorem skipP_eq {idx : Ptr Int} {val : Ptr V} {len : Nat} {r : Row V} (h : SegOk idx val len r)
    (j : Int) (F p : Nat) (hp : p ≤ len) (hF : len - p < F) :
    ∃ p', skipP F idx len j p = .ok p' ∧ p' ≤ len ∧ r.drop p' = skipRun j (r.drop p) := by
  have hl := h.length
  induction F generalizing p with
  | zero => omega
  | succ F ih =>
    by_cases hlt : p < len
    · have hd : r.drop p = r[p]'(by omega) :: r.drop (p + 1) := List.drop_eq_getElem_cons (by omega)
      have hg := h.idx_get p (by omega)
      rcases hrp : r[p]'(by omega) with ⟨k, x⟩
      rw [hrp] at hd hg
      by_cases hk : k = j
      · obtain ⟨p', h1, h2, h3⟩ := ih (p + 1) (by omega) (by omega)
        refine ⟨p', ?_, h2, ?_⟩
        · unfold skipP at h1 ⊢
          rw [whileM_true (s' := p + 1), h1]
          · simp only [andThen, hlt, decide_true, if_true, hg]
            show Except.ok (decide (k = j)) = _
            simp [hk]
          · rfl
        · rw [h3, hd, skipRun, if_pos hk]
      · refine ⟨p, ?_, hp, ?_⟩
        · unfold skipP
          rw [whileM_false]
          simp only [andThen, hlt, decide_true, if_true, hg]
          show Except.ok (decide (k = j)) = _
          simp [hk]
        · rw [hd, skipRun, if_neg hk]
    · have hd : r.drop p = [] := List.drop_eq_nil_of_le (by omega)
      refine ⟨p, ?_, hp, ?_⟩
      · unfold skipP
        rw [whileM_false]
        simp only [andThen, hlt, decide_false]
        rfl
      · rw [hd, skipRun]

theorem headP_eq {idx : Ptr Int} {val : Ptr V} {len : Nat} {r : Row V} (h : SegOk idx val len r)
    (p : Nat) : headP idx len p = .ok (headIdx (r.drop p)) := by
  have hl := h.length
  unfold headP
  by_cases hlt : p < len
  · have hd : r.drop p = r[p]'(by omega) :: r.drop (p + 1) := List.drop_eq_getElem_cons (by omega)
    have hg := h.idx_get p (by omega)
    rw [if_pos hlt, hg, hd]
    rcases r[p]'(by omega) with ⟨k, x⟩
    rfl
  · rw [if_neg hlt, List.drop_eq_nil_of_le (by omega)]
    rfl

/-- Both segments of a row routine. -/
structure ArgsOk (r : RowArgs V) (ra rb : Row V) : Prop where
  a : SegOk r.ai r.av r.alen ra
  b : SegOk r.bi r.bv r.blen rb

/-- The stores of a line written from position `s` on. -/
def storesAt (s : Nat) (out : Row V) : Stores V :=
  (lineWrites s (out.map Prod.fst), lineWrites s (out.map Prod.snd))

theorem lineWrites_app {α : Type} (l l' : List α) (s : Nat) :
    lineWrites s (l ++ l') = lineWrites s l ++ lineWrites (s + l.length) l' := by
  induction l generalizing s with
  | nil => simp [lineWrites]
  | cons x xs ih => simp [lineWrites, ih]; congr 1; omega

theorem emitP_eq {oi ov : MutPtr} {j : Int} {v : V} {s : FillSt V} {st : Nat} {out : Row V}
    (hi : oi.off = st) (hv : ov.off = st) (ci : st + out.length < oi.cap)
    (cv : st + out.length < ov.cap) (hd : s.dst = out.length) (ho : s.out = storesAt st out) :
    emitP oi ov j v s = .ok { s with dst := (out ++ [(j, v)]).length, out := storesAt st (out ++ [(j, v)]) } := by
  unfold emitP
  rw [MutPtr.put_eq (by omega), MutPtr.put_eq (by omega)]
  show Except.ok _ = _
  congr 2
  · simp [hd]
  · rw [ho]
    simp only [storesAt, List.map_append, List.map_cons, List.map_nil, lineWrites_app, hi, hv, hd,
      List.length_map]
    rfl

end Lacuna
