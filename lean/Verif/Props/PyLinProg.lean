import Verif.Lemmas.PyLinProg
import Verif.Props.PyStat
/-
C78: the linear algebra functions with all combinations of operands, and as the last step of a program.
-/
set_option linter.unusedSectionVars false

namespace Lacuna
variable {V : Type}

section
variable [Zero V] [Add V] [Mul V] [BEq V] [HasFma V]

/-- C78: two sparse operands, or a sparse right operand: `NotImplementedError`, whatever they contain. -/
theorem py_linalg_sparse_right (env : PyEnv V) (numpy : LinFn → DenseNd V → DenseNd V → PyRes (LinRes V) → Prop) (fn : LinFn)
    (x : LinArg V) (y : PyObj V) (out : PyRes (LinRes V)) :
    LinCall env numpy fn x (.sparse y) out ↔ out = .raises .notImplemented := by
  cases x <;> rfl

/-- `LinSparseDense` for a two-dimensional object. -/
theorem linSparseDense_2d (env : PyEnv V) (fn : LinFn) {x : PyObj V} {s : PySp V} (h : x.sp = some s) (y : DenseNd V)
    (out : PyRes (LinRes V)) :
    LinSparseDense env fn x y out ↔ ∃ o, (match fn with
      | .matmul => PyMatmul env.dbg env.threads s y o
      | .tensordot axes => PyTensordot env.dbg env.threads axes s y o
      | .vecdot axis => PyVecdot env.dbg env.threads axis s y o) ∧ out = o.bind fun r => .ret (.dense r) := by
  cases x with
  | mat f x => cases f <;> cases h <;> cases fn <;> rfl
  | coo x => cases h; cases fn <;> rfl
  | nd x => cases h

theorem bind_raises_iff {α β : Type} {P : PyRes α → Prop} {e : PyErr} (h : ∀ o, P o ↔ o = .raises e) (k : α → PyRes β) (out : PyRes β) :
    (∃ o, P o ∧ out = o.bind k) ↔ out = .raises e := by
  simp only [h, exists_eq_left]; rfl

/-- C78: the exceptions for a two-dimensional object, whatever its arrays contain. -/
theorem py_linalg_raises (env : PyEnv V) (fn : LinFn) {x : PyObj V} {s : PySp V} (h : x.sp = some s) {y : DenseNd V}
    (hy : y.data.length = y.shape.prod) {e : PyErr} (he : fn.error s.nrows s.ncols y.shape = some e) (out : PyRes (LinRes V)) :
    LinSparseDense env fn x y out ↔ out = .raises e := by
  rw [linSparseDense_2d env fn h]
  refine bind_raises_iff (fun o => ?_) _ _
  cases fn with
  | matmul =>
    obtain ⟨h1, h2, h3⟩ := py_matmul_rejects env.dbg env.threads s y o
    simp only [LinFn.error] at he
    split at he
    · cases he
      rename_i hc
      dsimp only
      rcases hsh : y.shape.reverse with _ | ⟨n, _ | ⟨k, b⟩⟩
      · exact h1 (by simpa using hsh)
      · have hs : y.shape = [n] := by simpa using congrArg List.reverse hsh
        refine h2 n hs ?_
        rw [hs] at hc hy
        simpa [hy] using hc
      · have hs : y.shape = b.reverse ++ [k, n] := by simpa using congrArg List.reverse hsh
        refine h3 b.reverse k n hs ?_
        rw [hs] at hc
        simpa using hc
    · cases he
  | tensordot axes =>
    obtain ⟨h1, h2, h3⟩ := py_tensordot_rejects env.dbg env.threads s y o
    have main : axes2d axes = .ok () → firstAxisError s.ncols y.shape = some e →
        (PyTensordot env.dbg env.threads axes s y o ↔ o = .raises e) := by
      intro ha he
      unfold firstAxisError at he
      split at he
      · cases he
        rename_i hc
        unfold PyTensordot
        rw [ha, hc]
      · rename_i hc
        split at he
        · cases he
          rename_i hd
          obtain ⟨d, rest, hs⟩ := List.exists_cons_of_ne_nil hc
          rw [hs] at hd
          exact h3 axes d rest ha hs (by simpa using hd)
        · cases he
    dsimp only
    match axes, he with
    | .int n, he =>
      simp only [LinFn.error] at he
      split at he
      · cases he; exact h1 n (by assumption)
      · rename_i hn
        refine main ?_ he
        exact if_neg hn
    | .pair (a :: as) (b :: bs), he =>
      simp only [LinFn.error] at he
      split at he
      · cases he; exact h2 a b as bs (by rename_i hn; intro hc; rcases hn with hn | hn; exacts [hn hc.1, hn hc.2])
      · rename_i hn
        refine main ?_ he
        exact if_neg hn
    | .pair [] b, he => cases he; rfl
    | .pair (a :: as) [], he => cases he; rfl
  | vecdot axis =>
    obtain ⟨h1, h2, h3⟩ := py_vecdot_rejects env.dbg env.threads s y o
    simp only [LinFn.error] at he
    dsimp only
    split at he
    · cases he; exact h1 axis (by assumption)
    rename_i hl
    obtain ⟨n, hs⟩ := List.length_eq_one_iff.1 (not_not.1 hl)
    rw [hs] at he
    unfold PyVecdot
    rw [hs]
    dsimp only
    split at he
    · split at he
      · cases he
        rename_i ha hn
        rw [if_pos ha, if_pos (by simpa using hn)]
      · cases he
    · rename_i ha
      rw [if_neg ha]
      split at he
      · rename_i ha0
        rw [if_pos ha0]
        split at he
        · cases he
          rename_i hn
          rw [if_pos (by simpa using hn)]
        · cases he
      · rename_i ha0
        rw [if_neg ha0]
        cases he; rfl

end

/-! ### Exceptions for `COOND` -/

theorem pyIndex_out {α : Type} (t : List α) {i : Int} (h : i < -t.length ∨ (t.length : Int) ≤ i) : pyIndex t i = .error .indexError := by
  unfold pyIndex
  split
  · rename_i v hv
    rw [if_neg]
    intro h0
    have := (List.getElem?_eq_some_iff.1 hv).1
    split at this <;> omega
  · rfl

theorem pyIndex_in {α : Type} (t : List α) {i : Int} (h1 : -(t.length : Int) ≤ i) (h2 : i < t.length) :
    ∃ v, pyIndex t i = .ok v ∧ (0 ≤ i → t[i.toNat]? = some v) := by
  have hlt : (if i < 0 then i + t.length else i).toNat < t.length := by split <;> omega
  refine ⟨t[(if i < 0 then i + t.length else i).toNat], ?_, ?_⟩
  · unfold pyIndex
    rw [List.getElem?_eq_getElem hlt]
    exact if_pos (by omega)
  · intro h0
    have e : (if i < 0 then i + t.length else i).toNat = i.toNat := by rw [if_neg (by omega)]
    rw [List.getElem?_eq_some_iff]
    exact ⟨by omega, by congr 1; exact e.symm⟩

theorem ndAxisError_none {axis : Int} {s ys : List Nat} :
    ndAxisError axis s ys = none ↔ ys ≠ [] ∧ 0 ≤ axis ∧ axis < s.length ∧ s.getD axis.toNat 0 = ys.getD 0 0 := by
  unfold ndAxisError
  by_cases h : ys = [] ∨ axis < -s.length ∨ (s.length : Int) ≤ axis
  · rw [if_pos h]
    simp only [reduceCtorEq, false_iff]
    rintro ⟨h1, h2, h3, -⟩
    rcases h with h | h | h
    · exact h1 h
    · omega
    · omega
  · rw [if_neg h]
    push Not at h
    by_cases h' : axis < 0 ∨ s.getD axis.toNat 0 ≠ ys.getD 0 0
    · rw [if_pos h']
      simp only [reduceCtorEq, false_iff]
      rintro ⟨h1, h2, h3, h4⟩
      rcases h' with h' | h'
      · omega
      · exact h' h4
    · rw [if_neg h']
      push Not at h'
      simp only [true_iff]
      exact ⟨h.1, h'.1, h.2.2, h'.2⟩

/-- The checks of the bindings for `COOND`, after the axis has been read. -/
theorem nd_checks_error {a : CooNd V} (ha : (PyNd.of a).parts = .ok a) {axis : Int} {d : Nat} {rest : List Nat} {e : PyErr}
    (h : ndAxisError axis a.shape (d :: rest) = some e) :
    (do
      let s ← pyIndex (PyNd.of a).shape axis
      if (d : Int) ≠ s then .error .valueError
      let a ← (PyNd.of a).parts
      let ax ← axisUsize axis
      pure (a, ax) : Except PyErr (CooNd V × Nat)) = .error e := by
  have hl : (PyNd.of a).shape.length = a.shape.length := by simp [PyNd.of]
  unfold ndAxisError at h
  split at h
  · cases h
    rename_i hc
    rw [pyIndex_out _ (by rw [hl]; rcases hc with h | h; exacts [absurd h (by simp), h])]
    rfl
  · rename_i hc
    split at h
    · cases h
      rename_i hd
      obtain ⟨v, hv, hv0⟩ := pyIndex_in (PyNd.of a).shape (i := axis) (by rw [hl]; by_contra hx; exact hc (.inr (.inl (by omega))))
        (by rw [hl]; by_contra hx; exact hc (.inr (.inr (by omega))))
      rw [hv, ha]
      by_cases hdv : (d : Int) = v
      · have haxis : axis < 0 := by
          by_contra h0
          have h0 : 0 ≤ axis := by omega
          have := hv0 h0
          rcases hd with hd | hd
          · omega
          · rw [show (PyNd.of a).shape = a.shape.map Int.ofNat from rfl, List.getElem?_map] at this
            apply hd
            rw [List.getD_eq_getElem?_getD]
            cases hg : a.shape[axis.toNat]? with
            | none => rw [hg] at this; cases this
            | some k =>
              rw [hg] at this
              have : (k : Int) = v := by simpa using this
              show k = d
              omega
        simp only [bind, Except.bind, hdv, ne_eq, not_true_eq_false, if_false, axisUsize, if_neg (show ¬ 0 ≤ axis by omega)]
      · simp only [bind, Except.bind]
        rw [if_pos hdv]
    · cases h

section
variable [Zero V] [Add V] [Mul V] [BEq V] [HasFma V]

/-- C78: the exceptions for a `COOND` object. -/
theorem py_linalg_nd_raises (env : PyEnv V) (fn : LinFn) {a : CooNd V} (hv : (SpVal.nd a).Valid)
    (hs : (SpVal.nd a).ty.SizeOk a.data.length) {y : DenseNd V} {e : PyErr} (he : fn.ndError a.shape y.shape = some e)
    (out : PyRes (LinRes V)) : LinSparseDense env fn (SpVal.nd a).obj y out ↔ out = .raises e := by
  have ha : (PyNd.of a).parts = .ok a := SpVal.Good.ndParts ⟨hv, hs⟩
  have hl : (PyNd.of a).shape.length = a.shape.length := by simp [PyNd.of]
  cases fn with
  | matmul => cases he; rfl
  | tensordot axes =>
    show (∃ o, PyTensordotNd env.dbg env.ndSort axes (PyNd.of a) y o ∧ out = o.bind fun r => .ret (.sparse (.nd r))) ↔ _
    refine bind_raises_iff (fun o => ?_) _ _
    have main : ∀ axis, axesNd a.shape.length axes = .ok axis → ndAxisError axis a.shape y.shape = some e →
        (PyTensordotNd env.dbg env.ndSort axes (PyNd.of a) y o ↔ o = .raises e) := by
      intro axis hax h
      unfold PyTensordotNd
      rw [hl, hax]
      cases hys : y.shape with
      | nil =>
        rw [hys] at h
        cases (show some PyErr.indexError = some e from h)
        rfl
      | cons d rest =>
        rw [hys] at h
        have e2 : pyIndex (d :: rest) 0 = .ok d := rfl
        have := nd_checks_error ha h
        simp only [bind, Except.bind, e2] at this ⊢
        rw [this]
    match axes, he with
    | .int n, he =>
      simp only [LinFn.ndError] at he
      split at he
      · cases he
        rename_i hn
        unfold PyTensordotNd
        rw [show axesNd (PyNd.of a).shape.length (.int n) = .error .notImplemented from if_pos hn]
        rfl
      · rename_i hn
        exact main _ (if_neg hn) he
    | .pair (p :: ps) (q :: qs), he =>
      simp only [LinFn.ndError] at he
      split at he
      · cases he
        rename_i hn
        unfold PyTensordotNd
        rw [show axesNd (PyNd.of a).shape.length (.pair (p :: ps) (q :: qs)) = .error .notImplemented from if_pos hn]
        rfl
      · rename_i hn
        exact main _ (if_neg hn) he
    | .pair [] b, he => cases he; rfl
    | .pair (p :: ps) [], he => cases he; rfl
  | vecdot axis =>
    show (∃ o, PyVecdotNd env.dbg env.ndSort axis (PyNd.of a) y o ∧ out = o.bind fun r => .ret (.sparse (.nd r))) ↔ _
    refine bind_raises_iff (fun o => ?_) _ _
    simp only [LinFn.ndError] at he
    split at he
    · cases he
      rename_i hn
      unfold PyVecdotNd
      match hys : y.shape with
      | [] => rfl
      | [n] => rw [hys] at hn; exact absurd rfl hn
      | _ :: _ :: _ => rfl
    rename_i hn
    obtain ⟨n, hys⟩ := List.length_eq_one_iff.1 (not_not.1 hn)
    rw [hys] at he
    split at he
    · rename_i e' he'
      cases he
      unfold PyVecdotNd
      rw [hys]
      dsimp only
      rw [hl, nd_checks_error ha he']
    · rename_i he'
      split at he
      · cases he
        rename_i h1
        obtain ⟨d, hd⟩ := List.length_eq_one_iff.1 h1
        refine py_vecdot_nd_one_axis env.dbg env.ndSort hd (by rw [hv.1.length, hd]; simp) ?_ ?_ ?_ o
        · have := good_nnz (v := .nd a) ⟨hv, hs⟩
          have : 24 * (a.data.length : Int) ≤ i64Max := this
          unfold i64Max at this; unfold usizeMax; omega
        · obtain ⟨-, b1, b2, -⟩ := ndAxisError_none.1 he'
          by_contra hc
          push Not at hc
          obtain ⟨c1, c2, c3⟩ := hc
          rw [if_neg (by rintro (h | h); exacts [c1 h, c2 h])] at b1 b2
          cases axis with
          | none => exact c1 rfl
          | some k =>
            rw [h1] at b2
            exact c3 (by rw [show k = 0 by simp only [Option.getD_some] at b1 b2; omega])
        · obtain ⟨-, b1, b2, b3⟩ := ndAxisError_none.1 he'
          generalize (if axis = none ∨ axis = some (-1) then (a.shape.length : Int) - 1 else axis.getD 0) = k at b1 b2 b3
          rw [show k.toNat = 0 by omega, hd] at b3
          rw [hys]
          have : d = n := by simpa using b3
          rw [this]
      · cases he

end

/-- C78: the cases without an exception are those for which NumPy documents a contraction of matching axes. -/
theorem linFn_error_none (fn : LinFn) (r c : Nat) (ys : List Nat) :
    fn.error r c ys = none ↔ ∃ tr p, fn.Contraction ys.length tr p ∧ ys[p]? = some (if tr then r else c) := by
  have get0 : ∀ {k : Nat}, ys ≠ [] → ((ys.getD 0 0 : Int) = k ↔ ys[0]? = some k) := by
    intro k hne
    obtain ⟨d, rest, rfl⟩ := List.exists_cons_of_ne_nil hne
    simp
  have first : firstAxisError c ys = none ↔ 1 ≤ ys.length ∧ ys[0]? = some c := by
    unfold firstAxisError
    by_cases hne : ys = []
    · simp [hne]
    · have : 1 ≤ ys.length := List.length_pos_iff.2 hne
      rw [if_neg hne, ← get0 hne]
      simp [this]
  cases fn with
  | matmul =>
    simp only [LinFn.error, LinFn.Contraction]
    rcases ys with _ | ⟨n, _ | ⟨k, b⟩⟩
    · simp
    · simp
    · have hl : ∀ i, i < (n :: k :: b).length → ((((n :: k :: b).getD i 0 : Nat) : Int) = c ↔ (n :: k :: b)[i]? = some c) := by
        intro i hi
        rw [List.getD_eq_getElem _ _ hi, List.getElem?_eq_getElem hi]
        simp
      have := hl ((n :: k :: b).length - 2) (by simp)
      constructor
      · intro h
        split at h
        · cases h
        · rename_i hc
          refine ⟨false, _, ⟨rfl, .inr ⟨by simp, rfl⟩⟩, this.1 ?_⟩
          by_contra hx; exact hc (.inr hx)
      · rintro ⟨tr, p, ⟨rfl, h | ⟨-, rfl⟩⟩, h3⟩
        · simp at h
        · rw [if_neg]
          rintro (h | h)
          · cases h
          · exact h (this.2 h3)
  | tensordot axes =>
    match axes with
    | .int n =>
      simp only [LinFn.error, LinFn.Contraction, AxesArg.Columns]
      by_cases hn : n = 1
      · subst hn
        rw [if_neg (by simp), first]
        constructor
        · rintro ⟨h1, h2⟩; exact ⟨false, 0, ⟨rfl, h1, rfl, .inl rfl⟩, h2⟩
        · rintro ⟨tr, p, ⟨rfl, h1, rfl, -⟩, h2⟩; exact ⟨h1, h2⟩
      · rw [if_pos hn]
        simp only [reduceCtorEq, false_iff]
        rintro ⟨tr, p, ⟨rfl, h1, rfl, h | ⟨ps, qs, h⟩⟩, h2⟩
        · cases h; exact hn rfl
        · cases h
    | .pair (a :: as) (b :: bs) =>
      simp only [LinFn.error, LinFn.Contraction, AxesArg.Columns]
      by_cases hn : a = 1 ∧ b = 0
      · obtain ⟨rfl, rfl⟩ := hn
        rw [if_neg (by simp), first]
        constructor
        · rintro ⟨h1, h2⟩; exact ⟨false, 0, ⟨rfl, h1, rfl, .inr ⟨as, bs, rfl⟩⟩, h2⟩
        · rintro ⟨tr, p, ⟨rfl, h1, rfl, -⟩, h2⟩; exact ⟨h1, h2⟩
      · rw [if_pos (by by_contra hc; push Not at hc; exact hn hc)]
        simp only [reduceCtorEq, false_iff]
        rintro ⟨tr, p, ⟨rfl, h1, rfl, h | ⟨ps, qs, h⟩⟩, h2⟩
        · cases h
        · cases h; exact hn ⟨rfl, rfl⟩
    | .pair [] b =>
      simp [LinFn.error, LinFn.Contraction, AxesArg.Columns]
    | .pair (a :: as) [] =>
      simp [LinFn.error, LinFn.Contraction, AxesArg.Columns]
  | vecdot axis =>
    simp only [LinFn.error, LinFn.Contraction]
    by_cases hl : ys.length = 1
    · obtain ⟨n, rfl⟩ := List.length_eq_one_iff.1 hl
      rw [if_neg (by simp)]
      by_cases ha : axis = none ∨ axis = some (-1) ∨ axis = some 1
      · rw [if_pos ha]
        constructor
        · intro h
          refine ⟨false, 0, ⟨rfl, rfl, by simpa using ha⟩, ?_⟩
          split at h
          · cases h
          · rename_i hn; simpa using hn
        · rintro ⟨tr, p, ⟨-, rfl, h1⟩, h2⟩
          cases tr with
          | false => rw [if_neg]; simpa using h2
          | true => simp at h1; subst h1; simp at ha
      · rw [if_neg ha]
        by_cases h0 : axis = some 0
        · rw [if_pos h0]
          constructor
          · intro h
            refine ⟨true, 0, ⟨rfl, rfl, by simpa using h0⟩, ?_⟩
            split at h
            · cases h
            · rename_i hn; simpa using hn
          · rintro ⟨tr, p, ⟨-, rfl, h1⟩, h2⟩
            cases tr with
            | false => exact absurd (by simpa using h1) ha
            | true => rw [if_neg]; simpa using h2
        · rw [if_neg h0]
          simp only [reduceCtorEq, false_iff]
          rintro ⟨tr, p, ⟨-, rfl, h1⟩, h2⟩
          cases tr with
          | false => exact absurd (by simpa using h1) ha
          | true => exact absurd (by simpa using h1) h0
    · rw [if_pos hl]
      simp only [reduceCtorEq, false_iff]
      rintro ⟨tr, p, ⟨h, -⟩, -⟩
      exact hl h

/-! ### Values -/

section
variable [CommSemiring V] [BEq V] [LawfulBEq V] [HasFma V] [IdealFma V]

/-- C78: over a commutative semiring, the three functions on an object that holds a valid matrix: one
possible outcome for every build, number of threads and schedule, the contraction that NumPy documents. -/
theorem py_linalg (env : PyEnv V) {v : SpVal V} (hv : v.Valid) (hs : v.ty.SizeOk v.nnz) (h2 : v.ty.Is2d)
    {fn : LinFn} {y : DenseNd V} (hy : y.Ok) {tr : Bool} {p : Nat} (hc : fn.Contraction y.shape.length tr p) {r c : Nat}
    (hrc : (if tr then v.ty.shape.reverse else v.ty.shape) = [r, c]) (hyc : y.shape[p]? = some c)
    (hpos : 0 < (y.shape.eraseIdx p).prod) (hsz : 8 * ((max r 1 * (y.shape.eraseIdx p).prod : Nat) : Int) ≤ i64Max) :
    ∃ d, Contracts r c (fun x => v.cell (if tr then x.reverse else x)) p y d ∧
      ∀ out, LinSparseDense env fn v.obj y out ↔ out = .ret (.dense d) := by
  obtain ⟨x, a, e1, e2, hx, hva, hfa, hsh⟩ := SpVal.Good.sp ⟨hv, hs⟩ h2
  have hval : ∀ i j : Nat, v.cell [(i : Int), (j : Int)] = a.val i j := fun i j => (SpVal.toNative_val e2 i j).symm
  rw [hsh] at hrc
  have hone : 8 * (((y.shape.eraseIdx p).prod : Nat) : Int) ≤ i64Max := by
    refine le_trans ?_ hsz
    have := Nat.le_mul_of_pos_left (y.shape.eraseIdx p).prod (show 0 < max r 1 by omega)
    omega
  replace hsz : 8 * ((r * (y.shape.eraseIdx p).prod : Nat) : Int) ≤ i64Max := by
    refine le_trans ?_ hsz
    have := Nat.mul_le_mul_right (y.shape.eraseIdx p).prod (show r ≤ max r 1 by omega)
    omega
  have done : ∀ {P : PyRes (DenseNd V) → Prop} {d : DenseNd V}, (∀ o, P o ↔ o = .ret d) → ∀ out : PyRes (LinRes V),
      ((∃ o, P o ∧ out = o.bind fun r => .ret (.dense r)) ↔ out = .ret (.dense d)) := by
    intro P d h out
    simp only [h, exists_eq_left]; rfl
  simp only [linSparseDense_2d env fn e1]
  cases fn with
  | matmul =>
    obtain ⟨rfl, hp⟩ := hc
    cases hrc
    simp only [Bool.false_eq_true, if_false]
    rcases hp with ⟨hl, rfl⟩ | ⟨hl, rfl⟩
    · obtain ⟨n, hn⟩ := List.length_eq_one_iff.1 hl
      rw [hn] at hyc
      have hn' : y.shape = [a.cols] := by rw [hn]; simpa using hyc
      exact ⟨_, contracts_vec hval hn', done (py_matmul_vec_correct hx hva hfa hn' hy)⟩
    · obtain ⟨n, k, b, hb⟩ : ∃ n k b, y.shape.reverse = n :: k :: b := by
        match h : y.shape.reverse with
        | [] => have := congrArg List.length h; simp at this; rw [this] at hl; simp at hl
        | [_] => have := congrArg List.length h; simp at this; omega
        | n :: k :: b => exact ⟨n, k, b, rfl⟩
      have hs : y.shape = b.reverse ++ [k, n] := by simpa using congrArg List.reverse hb
      generalize b.reverse = batch at hs
      have hl2 : y.shape.length - 2 = batch.length := by rw [hs]; simp
      rw [hl2, hs] at hyc
      have hk : k = a.cols := by simpa using hyc
      subst hk
      have he : (y.shape.eraseIdx batch.length).prod = batch.prod * n := by
        rw [hs, List.eraseIdx_append_of_length_le (le_refl _)]; simp
      rw [hl2] at hpos hsz ⊢
      rw [he] at hpos hsz
      by_cases hbn : batch = []
      · subst hbn
        have hs' : y.shape = [a.cols, n] := by simpa using hs
        obtain ⟨d, hd1, hd2⟩ := py_matmul_mat_correct (dbg := env.dbg) (nthreads := env.threads) hx hva hfa hs' (by simpa using hpos) hy (by simpa using hsz)
        have : IsMatProd a.rows a.cols ([n] : List Nat).prod a.val y.data d := by simpa using hd1
        exact ⟨_, contracts_tensordot hval hs' (isTensordot_of_matProd this), done hd2⟩
      · obtain ⟨d, hd1, hd2⟩ := py_matmul_batch_correct (dbg := env.dbg) (nthreads := env.threads) hx hva hfa hs hbn hpos hy hsz
        exact ⟨_, contracts_batch hval hs hd1, done hd2⟩
  | tensordot axes =>
    obtain ⟨rfl, hl, rfl, hax⟩ := hc
    cases hrc
    simp only [Bool.false_eq_true, if_false]
    have hax : axes2d axes = .ok () := by
      rcases hax with rfl | ⟨ps, qs, rfl⟩ <;> rfl
    obtain ⟨d, rest, hs⟩ := List.exists_cons_of_length_pos hl
    rw [hs] at hyc hpos hsz hone
    have hd : d = a.cols := by simpa using hyc
    subst hd
    rw [List.eraseIdx_cons_zero] at hpos hsz hone
    by_cases hr : rest = []
    · subst hr
      exact ⟨_, contracts_vec hval hs, done (py_tensordot_vec_correct hx hva hfa hax hs hy)⟩
    · have hr' : rest.prod ≤ usizeMax := bytes_usize hone
      obtain ⟨d, hd1, hd2⟩ := py_tensordot_correct (dbg := env.dbg) (nthreads := env.threads) hx hva hfa hax hs hr hpos hy hr' hsz
      exact ⟨_, contracts_tensordot hval hs hd1, done hd2⟩
  | vecdot axis =>
    obtain ⟨hl, rfl, hax⟩ := hc
    obtain ⟨n, hn⟩ := List.length_eq_one_iff.1 hl
    rw [hn] at hyc
    cases tr with
    | false =>
      cases hrc
      simp only [Bool.false_eq_true, if_false] at hax ⊢
      have hn' : y.shape = [a.cols] := by rw [hn]; simpa using hyc
      exact ⟨_, contracts_vec hval hn', done fun o => (py_vecdot_correct hx hva hfa hy o).1 hn' axis hax⟩
    | true =>
      cases hrc
      simp only [if_true] at hax ⊢
      subst hax
      have hn' : y.shape = [a.rows] := by rw [hn]; simpa using hyc
      exact ⟨_, contracts_vec (val := fun i j => a.val j i) (fun i j => hval j i) hn',
        done fun o => (py_vecdot_correct hx hva hfa hy o).2 hn'⟩

theorem insertIdx_getD {u : List Int} {axis : Nat} (h : axis ≤ u.length) (j : Int) : (u.insertIdx axis j).getD axis 0 = j := by
  rw [List.getD_eq_getElem _ _ (by rw [List.length_insertIdx_of_le_length h]; omega)]
  exact List.getElem_insertIdx_self _

/-- C78: `tensordot` of a valid `COOND`: one possible outcome, a valid `COOND` whose last axis is all
remaining axes of the dense operand flattened into one. -/
theorem py_tensordot_nd {env : PyEnv V} (he : env.Ok) {a : CooNd V} (hv : (SpVal.nd a).Valid)
    (hs : (SpVal.nd a).ty.SizeOk a.data.length) {axes : AxesArg} {axis : Nat} (hax : axis < a.shape.length)
    (hnd : (LinFn.tensordot axes).NdContraction a.shape.length axis) {y : DenseNd V} (hy : y.Ok) {rest : List Nat}
    (hys : y.shape = a.shape.getD axis 0 :: rest) (hpos : 0 < rest.prod)
    (hcells : (((a.shape.eraseIdx axis).prod * rest.prod : Nat) : Int) ≤ i64Max)
    (hmem : 24 * ((a.data.length * a.shape.length * rest.prod : Nat) : Int) ≤ i64Max) :
    ∃ r : CooNd V, (∀ out, LinSparseDense env (.tensordot axes) (SpVal.nd a).obj y out ↔ out = .ret (.sparse (SpVal.nd r).obj)) ∧
      r.WF ∧ r.Sorted ∧ r.NoZeros ∧ r.shape = a.shape.eraseIdx axis ++ [rest.prod] ∧
      ∀ u z, InBounds (a.shape.eraseIdx axis) u → InBounds rest z →
        r.val (u ++ [(rowMajor rest z : Int)]) = ((List.range (a.shape.getD axis 0)).map fun (j : Nat) =>
          (SpVal.nd a).cell (u.insertIdx axis (j : Int)) * y.elem ((j : Int) :: z)).sum := by
  obtain ⟨hwf, hi, hp0, hpu⟩ := good_nd ⟨hv, hs⟩
  obtain ⟨-, hpi, -, -⟩ := hs
  have hpi : (a.shape.prod : Int) ≤ i64Max := hpi
  have hdvd : (a.shape.eraseIdx axis).prod ∣ a.shape.prod := (List.eraseIdx_sublist a.shape axis).prod_dvd_prod
  have he0 : 0 < (a.shape.eraseIdx axis).prod := Nat.pos_of_dvd_of_pos hdvd hp0
  have hr : (rest.prod : Int) ≤ i64Max := by
    refine le_trans ?_ hcells
    exact_mod_cast Nat.le_mul_of_pos_left _ he0
  have hap : (a.shape.eraseIdx axis ++ [rest.prod]).prod = (a.shape.eraseIdx axis).prod * rest.prod := by simp
  have hn0 : 0 < a.shape.length := by omega
  obtain ⟨r, h1, h2, h3, h4, h5, h6⟩ := py_tensordot_nd_correct (dbg := env.dbg) he.nd hwf hi hax hnd hys hy hpos hr
    (fun d hd => le_trans (by exact_mod_cast le_prod_of_mem hp0 hd) hpi)
    (by rw [shape_restAxes hax]
        refine noOverflow_of_pos (by rw [hap]; exact Nat.mul_pos he0 hpos) ?_
        rw [hap]; unfold i64Max at hcells; unfold usizeMax; omega)
    (by refine le_trans ?_ hmem
        have : a.data.length * rest.prod ≤ a.data.length * a.shape.length * rest.prod :=
          Nat.mul_le_mul_right _ (Nat.le_mul_of_pos_right _ hn0)
        omega)
    (by rw [hwf.length]; omega)
  rw [shape_restAxes hax] at h2
  refine ⟨r, fun out => ?_, h3, h4, h5, h2, fun u z hu hz => ?_⟩
  · show (∃ o, PyTensordotNd env.dbg env.ndSort axes (PyNd.of a) y o ∧ out = o.bind fun r => .ret (.sparse (.nd r))) ↔ _
    simp only [h1, exists_eq_left]; rfl
  · rw [h6 u z hz, indicesOf_fibre hax hu, List.map_map]
    refine congrArg _ (List.map_congr_left fun j hj => ?_)
    have hul : axis ≤ u.length := by
      have := hu.length_eq; rw [List.length_eraseIdx_of_lt hax] at this; omega
    simp only [Function.comp, insertIdx_getD hul, DenseNd.elem, hys]
    rfl

/-- C78: `vecdot` of a valid `COOND` with at least two axes: one possible outcome, a valid `COOND`. -/
theorem py_vecdot_nd {env : PyEnv V} (he : env.Ok) {a : CooNd V} (hv : (SpVal.nd a).Valid)
    (hs : (SpVal.nd a).ty.SizeOk a.data.length) {ax : Option Int} {axis : Nat} (hax : axis < a.shape.length)
    (hrank : 1 < a.shape.length) (hnd : (LinFn.vecdot ax).NdContraction a.shape.length axis) {y : DenseNd V} (hy : y.Ok)
    (hys : y.shape = [a.shape.getD axis 0]) :
    ∃ r : CooNd V, (∀ out, LinSparseDense env (.vecdot ax) (SpVal.nd a).obj y out ↔ out = .ret (.sparse (SpVal.nd r).obj)) ∧
      r.WF ∧ r.Sorted ∧ r.shape = a.shape.eraseIdx axis ∧
      ∀ u, InBounds (a.shape.eraseIdx axis) u →
        r.val u = ((List.range (a.shape.getD axis 0)).map fun (j : Nat) =>
          (SpVal.nd a).cell (u.insertIdx axis (j : Int)) * y.elem [(j : Int)]).sum := by
  obtain ⟨hwf, hi, hp0, hpu⟩ := good_nd ⟨hv, hs⟩
  obtain ⟨-, hpi, hm, hix⟩ := hs
  have hpi : (a.shape.prod : Int) ≤ i64Max := hpi
  have hdvd : (a.shape.eraseIdx axis).prod ∣ a.shape.prod := (List.eraseIdx_sublist a.shape axis).prod_dvd_prod
  have he0 : 0 < (a.shape.eraseIdx axis).prod := Nat.pos_of_dvd_of_pos hdvd hp0
  obtain ⟨r, h1, h2, h3, h4, h5⟩ := py_vecdot_nd_correct (dbg := env.dbg) he.nd hwf hi hax hrank hnd hys hy
    (fun d hd => le_trans (by exact_mod_cast le_prod_of_mem hp0 hd) hpi)
    (by rw [shape_restAxes hax]; exact noOverflow_of_pos he0 (le_trans (Nat.le_of_dvd hp0 hdvd) hpu)) hm
    (by rw [hwf.length]; exact hix)
  rw [shape_restAxes hax] at h2
  refine ⟨r, fun out => ?_, h3, h4, h2, fun u hu => ?_⟩
  · show (∃ o, PyVecdotNd env.dbg env.ndSort ax (PyNd.of a) y o ∧ out = o.bind fun r => .ret (.sparse (.nd r))) ↔ _
    simp only [h1, exists_eq_left]; rfl
  · rw [h5, indicesOf_fibre hax hu, List.map_map]
    refine congrArg _ (List.map_congr_left fun j hj => ?_)
    have hul : axis ≤ u.length := by
      have := hu.length_eq; rw [List.length_eraseIdx_of_lt hax] at this; omega
    simp only [Function.comp, insertIdx_getD hul, DenseNd.elem, hys]
    simp [rowMajor, SpVal.cell]

end

/-- C78: for a `COOND`, the cases without an exception are those for which an axis is contracted with the first
axis of the dense operand. -/
theorem linFn_ndError_none (fn : LinFn) (s ys : List Nat) :
    fn.ndError s ys = none ↔ ∃ axis rest, axis < s.length ∧ fn.NdContraction s.length axis ∧ ys = s.getD axis 0 :: rest ∧
      ∀ ax, fn = .vecdot ax → rest = [] ∧ 1 < s.length := by
  have key : ∀ {k : Int}, ndAxisError k s ys = none ↔ ∃ axis rest, axis < s.length ∧ k = (axis : Int) ∧ ys = s.getD axis 0 :: rest := by
    intro k
    rw [ndAxisError_none]
    constructor
    · rintro ⟨h1, h2, h3, h4⟩
      obtain ⟨d, rest, rfl⟩ := List.exists_cons_of_ne_nil h1
      exact ⟨k.toNat, rest, by omega, by omega, by rw [h4]; rfl⟩
    · rintro ⟨axis, rest, h1, rfl, rfl⟩
      exact ⟨by simp, by omega, by omega, by simp⟩
  cases fn with
  | matmul => simp [LinFn.ndError, LinFn.NdContraction]
  | tensordot axes =>
    match axes with
    | .int n =>
      simp only [LinFn.ndError, LinFn.NdContraction, NdAxis]
      by_cases hn : n = 1
      · subst hn
        rw [if_neg (by simp), key]
        constructor
        · rintro ⟨axis, rest, h1, h2, h3⟩
          exact ⟨axis, rest, h1, .inl ⟨rfl, by omega⟩, h3, by simp⟩
        · rintro ⟨axis, rest, h1, h2 | ⟨ps, qs, h2⟩, h3, -⟩
          · exact ⟨axis, rest, h1, by omega, h3⟩
          · cases h2
      · rw [if_pos hn]
        simp only [reduceCtorEq, false_iff]
        rintro ⟨axis, rest, h1, ⟨h2, -⟩ | ⟨ps, qs, h2⟩, h3, -⟩
        · cases h2; exact hn rfl
        · cases h2
    | .pair (a :: as) (b :: bs) =>
      simp only [LinFn.ndError, LinFn.NdContraction, NdAxis]
      by_cases hn : b = 0
      · subst hn
        rw [if_neg (by simp), key]
        constructor
        · rintro ⟨axis, rest, h1, h2, h3⟩
          exact ⟨axis, rest, h1, .inr ⟨as, bs, by rw [h2]⟩, h3, by simp⟩
        · rintro ⟨axis, rest, h1, ⟨h2, -⟩ | ⟨ps, qs, h2⟩, h3, -⟩
          · cases h2
          · cases h2; exact ⟨axis, rest, h1, rfl, h3⟩
      · rw [if_pos hn]
        simp only [reduceCtorEq, false_iff]
        rintro ⟨axis, rest, h1, ⟨h2, -⟩ | ⟨ps, qs, h2⟩, h3, -⟩
        · cases h2
        · cases h2; exact hn rfl
    | .pair [] b => simp [LinFn.ndError, LinFn.NdContraction, NdAxis]
    | .pair (a :: as) [] => simp [LinFn.ndError, LinFn.NdContraction, NdAxis]
  | vecdot ax =>
    simp only [LinFn.ndError, LinFn.NdContraction]
    by_cases hl : ys.length = 1
    · rw [if_neg (by simp [hl])]
      constructor
      · intro h
        split at h
        · cases h
        · rename_i h'
          split at h
          · cases h
          · rename_i h1
            obtain ⟨axis, rest, g1, g2, g3⟩ := key.1 h'
            have hr : rest = [] := by rw [g3] at hl; simpa using hl
            refine ⟨axis, rest, g1, ?_, g3, fun _ _ => ⟨hr, by omega⟩⟩
            split at g2
            · rename_i hax; exact .inl ⟨hax, by omega⟩
            · rename_i hax
              cases ax with
              | none => exact absurd (.inl rfl) hax
              | some k => exact .inr (by rw [← g2]; rfl)
      · rintro ⟨axis, rest, g1, g2, g3, g4⟩
        have g4 := g4 ax rfl
        rw [key.2 ⟨axis, rest, g1, ?_, g3⟩]
        · dsimp only
          rw [if_neg (by omega)]
        · rcases g2 with ⟨hax, hx⟩ | rfl
          · rw [if_pos hax]; omega
          · split
            · rename_i hax
              simp at hax
            · rfl
    · rw [if_pos hl]
      simp only [reduceCtorEq, false_iff]
      rintro ⟨axis, rest, g1, g2, g3, g4⟩
      rw [(g4 ax rfl).1] at g3
      rw [g3] at hl
      exact hl rfl

/-! ### Programs -/

section
variable [Zero V] [One V] [Add V] [Sub V] [Mul V] [Div V] [Neg V] [BEq V] [NatCast V] [HasFinite V]
  [HasFloor V] [HasPowf V] [HasAbs V] [HasLt V] [HasNan V] [HasFma V]

/-- The value of a program in any arithmetic. -/
theorem prog_any {env : PyEnv V} (he : env.Ok) {e : Prog V} (hl : e.LitsOk) (hs : e.Small) {τ : Ty} (hc : e.check = .ok τ) :
    ∃ w : SpVal V, w.Valid ∧ w.ty.SizeOk w.nnz ∧ w.ty = τ ∧ w.nnz ≤ e.bound ∧ ∀ o, e.Eval env o ↔ o = .ret w.obj := by
  obtain ⟨h1, h2⟩ := Prog.step he hl hs
  have hf := Prog.small_fits hs
  unfold Prog.Fits at hf
  rw [hc] at h1 hf
  obtain ⟨w, e1, hv, ht, hn⟩ := h1
  rw [e1] at h2
  exact ⟨w, hv, by rw [ht]; exact Ty.SizeOk.mono hf hn, ht, hn, h2⟩

theorem linalg_then {env : PyEnv V} {fn : LinFn} {e : Prog V} {y : DenseNd V} {x : PyObj V} (h : ∀ o, e.Eval env o ↔ o = .ret x)
    (out : PyRes (LinRes V)) : e.Linalg env fn y out ↔ LinSparseDense env fn x y out := by
  unfold Prog.Linalg
  simp only [h, exists_eq_left]; rfl

/-- C78: in any arithmetic, the exceptions of a program with one of the functions in the end: those of the
program, then those of the function. -/
theorem prog_linalg_raises {env : PyEnv V} (he : env.Ok) {e : Prog V} (hl : e.LitsOk) (hs : e.Small) {fn : LinFn} {y : DenseNd V}
    (hy : y.Ok) (out : PyRes (LinRes V)) {x : PyErr} :
    (e.check = .error x → (e.Linalg env fn y out ↔ out = .raises x)) ∧
    (∀ τ r c, e.check = .ok τ → τ.Is2d → τ.shape = [r, c] → fn.error r c y.shape = some x →
      (e.Linalg env fn y out ↔ out = .raises x)) ∧
    (∀ s, e.check = .ok (.nd s) → fn.ndError s y.shape = some x → (e.Linalg env fn y out ↔ out = .raises x)) := by
  refine ⟨fun hc => ?_, fun τ r c hc h2 hsh hx => ?_, fun s hc hx => ?_⟩
  · obtain ⟨h1, h2⟩ := Prog.step he hl hs
    rw [hc] at h1
    have h1 : e.value env = .error x := h1
    rw [h1] at h2
    have h2 : ∀ o, e.Eval env o ↔ o = .raises x := h2
    unfold Prog.Linalg
    simp only [h2, exists_eq_left]; rfl
  · obtain ⟨w, hv, hsz, rfl, -, hev⟩ := prog_any he hl hs hc
    rw [linalg_then hev]
    obtain ⟨s, a, e1, -, hh, -, -, hsh'⟩ := SpVal.Good.sp ⟨hv, hsz⟩ h2
    rw [hsh] at hsh'
    injection hsh' with hr hsh'
    injection hsh' with hc' _
    exact py_linalg_raises env fn e1 hy.1 (by rw [hh.1, hh.2.1, ← hr, ← hc']; exact hx) out
  · obtain ⟨w, hv, hsz, ht, -, hev⟩ := prog_any he hl hs hc
    rw [linalg_then hev]
    cases w with
    | mat f a => cases ht
    | coo a => cases ht
    | nd a =>
      cases ht
      exact py_linalg_nd_raises env fn hv hsz hx out

/-- C78: in any arithmetic (NaNs, infinities, rounding), none of the three functions in the end of a program
reaches undefined behaviour, whatever the dense operand and the axes, as long as the number of elements of the
result does not wrap. -/
theorem prog_linalg_safe {env : PyEnv V} (he : env.Ok) {e : Prog V} (hl : e.LitsOk) (hs : e.Small) {τ : Ty} (hc : e.check = .ok τ)
    {fn : LinFn} {y : DenseNd V} (hy : y.Ok) (hsz : ∀ p < y.shape.length, τ.shape.getD 0 0 * (y.shape.eraseIdx p).prod ≤ usizeMax)
    {out : PyRes (LinRes V)} (h : e.Linalg env fn y out) : out ≠ .ub := by
  obtain ⟨w, hv, hsw, rfl, -, hev⟩ := prog_any he hl hs hc
  rw [linalg_then hev] at h
  by_cases h2 : w.ty.Is2d
  · obtain ⟨s, a, e1, -, hx, hva, hfa, hsh⟩ := SpVal.Good.sp ⟨hv, hsw⟩ h2
    rw [linSparseDense_2d env fn e1] at h
    obtain ⟨o, ho, rfl⟩ := h
    refine PyRes.bind_ne_ub ?_ fun _ => by simp
    rw [hsh] at hsz
    obtain ⟨u1, u2, u3⟩ := py_linalg_no_ub (dbg := env.dbg) (nthreads := env.threads) hx hva hfa hy (out := o)
    cases fn with
    | matmul =>
      rcases hr : y.shape.reverse with _ | ⟨n, _ | ⟨k, b⟩⟩
      · have hs : y.shape = [] := by simpa using hr
        have ho : AtMul env.dbg env.threads s y o := by
          have ho : PyMatmul env.dbg env.threads s y o := ho
          unfold PyMatmul at ho; rwa [if_pos (by rw [hs]; simp)] at ho
        unfold AtMul at ho
        rw [hs] at ho
        rw [ho]; simp
      · have hs : y.shape = [n] := by simpa using congrArg List.reverse hr
        have ho : AtMul env.dbg env.threads s y o := by
          have ho : PyMatmul env.dbg env.threads s y o := ho
          unfold PyMatmul at ho; rwa [if_pos (by rw [hs]; simp)] at ho
        unfold AtMul at ho
        rw [hs] at ho
        exact matVec_no_ub hx hva hfa ho
      · have hs : y.shape = b.reverse ++ [k, n] := by simpa using congrArg List.reverse hr
        refine u3 ?_ ho
        have := hsz (y.shape.length - 2) (by rw [hs]; simp)
        generalize b.reverse = batch at hs
        have l2 : y.shape.length - 2 = batch.length := by rw [hs]; simp
        have l1 : y.shape.length - 1 = batch.length + 1 := by rw [hs]; simp
        rw [l2, hs, List.eraseIdx_append_of_length_le (le_refl _)] at this
        rw [l2, l1, hs]
        simpa using this
    | tensordot axes =>
      cases hys : y.shape with
      | nil =>
        have ho : PyTensordot env.dbg env.threads axes s y o := ho
        unfold PyTensordot at ho
        split at ho
        · rw [ho]; simp
        · rw [hys] at ho; rw [show o = .raises .indexError from ho]; simp
      | cons d rest =>
        refine u1 axes ?_ ho
        have := hsz 0 (by rw [hys]; simp)
        rw [hys] at this
        rw [hys]
        simpa using this
    | vecdot axis => exact u2 axis ho
  · cases w with
    | mat f a => exact absurd trivial h2
    | coo a => exact absurd trivial h2
    | nd a =>
      obtain ⟨-, -, -, hix⟩ := hsw
      have hix : 8 * ((a.data.length * a.shape.length : Nat) : Int) ≤ i64Max := hix
      have hu : a.data.length * a.shape.length ≤ usizeMax := bytes_usize hix
      cases fn with
      | matmul => rw [show out = .raises .notImplemented from h]; simp
      | tensordot axes =>
        obtain ⟨o, ho, rfl⟩ := (show ∃ o, PyTensordotNd env.dbg env.ndSort axes (PyNd.of a) y o ∧ out = o.bind fun r => .ret (.sparse (.nd r)) from h)
        exact PyRes.bind_ne_ub ((py_linalg_nd_no_ub env.ndSort hv.1 hu y o).1 axes ho) fun _ => by simp
      | vecdot axis =>
        obtain ⟨o, ho, rfl⟩ := (show ∃ o, PyVecdotNd env.dbg env.ndSort axis (PyNd.of a) y o ∧ out = o.bind fun r => .ret (.sparse (.nd r)) from h)
        exact PyRes.bind_ne_ub ((py_linalg_nd_no_ub env.ndSort hv.1 hu y o).2 axis ho) fun _ => by simp

end

section
variable [Field V] [LinearOrder V] [IsStrictOrderedRing V] [FloorRing V] [BEq V] [LawfulBEq V] [HasFinite V]
  [HasFloor V] [HasPowf V] [HasAbs V] [HasLt V] [HasNan V] [IdealOrd V] [HasFma V] [IdealFma V]

/-- C78: let the arithmetic be exact.  A program whose value is a matrix, as the left operand of one of the
functions: every run returns the same dense array, the contraction of the array the program denotes. -/
theorem prog_linalg (hfin : ∀ v : V, isFinite v = true) (hfl : ∀ v : V, HasFloor.floor v = (⌊v⌋ : V)) {env : PyEnv V}
    (he : env.Ok) {e : Prog V} (hl : e.LitsOk) (hs : e.Small) (hx : e.Exact) {τ : Ty} (hc : e.check = .ok τ) (h2 : τ.Is2d)
    {fn : LinFn} {y : DenseNd V} (hy : y.Ok) {tr : Bool} {p : Nat} (hfn : fn.Contraction y.shape.length tr p) {r c : Nat}
    (hrc : (if tr then τ.shape.reverse else τ.shape) = [r, c]) (hyc : y.shape[p]? = some c)
    (hpos : 0 < (y.shape.eraseIdx p).prod) (hsz : 8 * ((max r 1 * (y.shape.eraseIdx p).prod : Nat) : Int) ≤ i64Max) :
    ∃ d, Contracts r c (fun x => e.cells (if tr then x.reverse else x)) p y d ∧
      ∀ out, e.Linalg env fn y out ↔ out = .ret (.dense d) := by
  let _ : HasMinMax V := ⟨min, max, min, max, 0, 0⟩
  let _ : HasSqrt V := ⟨id⟩
  obtain ⟨w, hv, hs', rfl, -, hcell, hev⟩ := prog_value hfin hfl he hl hs hx hc
  obtain ⟨d, h1, h3⟩ := py_linalg env hv hs' h2 hy hfn hrc hyc hpos hsz
  refine ⟨d, contracts_congr (List.getElem?_eq_some_iff.1 hyc).1 h1 fun x hxb => ?_, fun out => ?_⟩
  · apply hcell
    cases tr with
    | false => simp only [Bool.false_eq_true, if_false] at hrc ⊢; rw [hrc]; exact hxb
    | true =>
      simp only [if_true] at hrc ⊢
      obtain ⟨i, j, hi, hj, rfl⟩ := inBounds_two hxb
      rw [show w.ty.shape = [c, r] by simpa using congrArg List.reverse hrc]
      exact .cons ⟨by omega, by omega⟩ (.cons ⟨by omega, by omega⟩ .nil)
  · rw [linalg_then hev]; exact h3 out

theorem insertIdx_inBounds {s : List Nat} {axis : Nat} (h : axis < s.length) {u : List Int} (hu : InBounds (s.eraseIdx axis) u)
    {j : Nat} (hj : j < s.getD axis 0) : InBounds s (u.insertIdx axis (j : Int)) := by
  have : u.insertIdx axis (j : Int) ∈ (indicesOf s).filter (fun x => select (restAxes s.length [axis]) x == u) := by
    rw [indicesOf_fibre h hu]
    exact List.mem_map.2 ⟨j, List.mem_range.2 hj, rfl⟩
  exact mem_indicesOf.1 (List.mem_filter.1 this).1

/-- C78: a program whose value is a `COOND`, with `tensordot` in the end. -/
theorem prog_tensordot_nd (hfin : ∀ v : V, isFinite v = true) (hfl : ∀ v : V, HasFloor.floor v = (⌊v⌋ : V)) {env : PyEnv V}
    (he : env.Ok) {e : Prog V} (hl : e.LitsOk) (hs : e.Small) (hx : e.Exact) {s : List Nat} (hc : e.check = .ok (.nd s))
    {axes : AxesArg} {axis : Nat} (hax : axis < s.length) (hnd : (LinFn.tensordot axes).NdContraction s.length axis)
    {y : DenseNd V} (hy : y.Ok) {rest : List Nat} (hys : y.shape = s.getD axis 0 :: rest) (hpos : 0 < rest.prod)
    (hcells : (((s.eraseIdx axis).prod * rest.prod : Nat) : Int) ≤ i64Max)
    (hmem : 24 * ((e.bound * s.length * rest.prod : Nat) : Int) ≤ i64Max) :
    ∃ r : CooNd V, (∀ out, e.Linalg env (.tensordot axes) y out ↔ out = .ret (.sparse (SpVal.nd r).obj)) ∧
      r.WF ∧ r.Sorted ∧ r.NoZeros ∧ r.shape = s.eraseIdx axis ++ [rest.prod] ∧
      ∀ u z, InBounds (s.eraseIdx axis) u → InBounds rest z →
        r.val (u ++ [(rowMajor rest z : Int)]) = ((List.range (s.getD axis 0)).map fun (j : Nat) =>
          e.cells (u.insertIdx axis (j : Int)) * y.elem ((j : Int) :: z)).sum := by
  let _ : HasMinMax V := ⟨min, max, min, max, 0, 0⟩
  let _ : HasSqrt V := ⟨id⟩
  obtain ⟨w, hv, hs', ht, -, hcell, hev⟩ := prog_value hfin hfl he hl hs hx hc
  obtain ⟨w', -, -, -, hb, hev'⟩ := prog_any he hl hs hc
  have hn : w.nnz = w'.nnz := by
    have := (hev' _).1 ((hev _).2 rfl)
    injection this with this
    have key : ∀ v : SpVal V, v.nnz = (match v.obj with | .mat _ x => x.data.length | .coo x => x.data.length | .nd x => x.data.length) := by
      intro v; cases v <;> rfl
    rw [key, key, this]
  rw [← hn] at hb
  cases w with
  | mat f a => cases ht
  | coo a => cases ht
  | nd a =>
    cases ht
    have hb : a.data.length ≤ e.bound := hb
    obtain ⟨r, h1, h2, h3, h4, h5, h6⟩ := py_tensordot_nd he hv hs' hax hnd hy hys hpos hcells (by
      refine le_trans ?_ hmem
      have : a.data.length * a.shape.length * rest.prod ≤ e.bound * a.shape.length * rest.prod :=
        Nat.mul_le_mul_right _ (Nat.mul_le_mul_right _ hb)
      omega)
    refine ⟨r, fun out => by rw [linalg_then hev]; exact h1 out, h2, h3, h4, h5, fun u z hu hz => ?_⟩
    rw [h6 u z hu hz]
    refine congrArg _ (List.map_congr_left fun j hj => ?_)
    rw [hcell _ (insertIdx_inBounds hax hu (List.mem_range.1 hj))]

/-- C78: a program whose value is a `COOND` with at least two axes, with `vecdot` in the end. -/
theorem prog_vecdot_nd (hfin : ∀ v : V, isFinite v = true) (hfl : ∀ v : V, HasFloor.floor v = (⌊v⌋ : V)) {env : PyEnv V}
    (he : env.Ok) {e : Prog V} (hl : e.LitsOk) (hs : e.Small) (hx : e.Exact) {s : List Nat} (hc : e.check = .ok (.nd s))
    {ax : Option Int} {axis : Nat} (hax : axis < s.length) (hrank : 1 < s.length)
    (hnd : (LinFn.vecdot ax).NdContraction s.length axis) {y : DenseNd V} (hy : y.Ok) (hys : y.shape = [s.getD axis 0]) :
    ∃ r : CooNd V, (∀ out, e.Linalg env (.vecdot ax) y out ↔ out = .ret (.sparse (SpVal.nd r).obj)) ∧
      r.WF ∧ r.Sorted ∧ r.shape = s.eraseIdx axis ∧
      ∀ u, InBounds (s.eraseIdx axis) u →
        r.val u = ((List.range (s.getD axis 0)).map fun (j : Nat) =>
          e.cells (u.insertIdx axis (j : Int)) * y.elem [(j : Int)]).sum := by
  let _ : HasMinMax V := ⟨min, max, min, max, 0, 0⟩
  let _ : HasSqrt V := ⟨id⟩
  obtain ⟨w, hv, hs', ht, -, hcell, hev⟩ := prog_value hfin hfl he hl hs hx hc
  cases w with
  | mat f a => cases ht
  | coo a => cases ht
  | nd a =>
    cases ht
    obtain ⟨r, h1, h2, h3, h4, h5⟩ := py_vecdot_nd he hv hs' hax hrank hnd hy hys
    refine ⟨r, fun out => by rw [linalg_then hev]; exact h1 out, h2, h3, h4, fun u hu => ?_⟩
    rw [h5 u hu]
    refine congrArg _ (List.map_congr_left fun j hj => ?_)
    rw [hcell _ (insertIdx_inBounds hax hu (List.mem_range.1 hj))]

end

/-! ### Examples -/

section
attribute [local instance] meaningHasFinite meaningHasFloor meaningHasPowf meaningHasLt meaningHasAbs meaningHasNan meaningIdealOrd

/-- Fused multiply-add of exact rationals. -/
local instance linFmaQ : HasFma ℚ := ⟨fun a b c => a * b + c⟩
local instance linIdealFmaQ : IdealFma ℚ := ⟨fun _ _ _ => rfl⟩

/-- `matmul(program, y)` for the program of C74, `[[10, -2, -21], [-9/2, 0, 0]]`, and a batch of two `3 × 1`
matrices. -/
example (dbg : Bool) : ∃ d : DenseNd ℚ, (∀ out, exCalc.Linalg (exEnvQ dbg) .matmul ⟨[2, 3, 1], [1, 0, 0, 0, 1, 1]⟩ out ↔ out = .ret (.dense d)) ∧
    d.shape = [2, 2, 1] ∧ d.elem [0, 0, 0] = 10 ∧ d.elem [0, 1, 0] = -9 / 2 ∧ d.elem [1, 0, 0] = -23 := by
  obtain ⟨d, ⟨h1, h2, h3⟩, h4⟩ := prog_linalg (fun _ => rfl) (fun _ => rfl) (exEnvQ_ok dbg) exCalc_lits exCalc_small exCalc_exact exCalc_type
    trivial (fn := .matmul) (y := ⟨[2, 3, 1], [1, 0, 0, 0, 1, 1]⟩) ⟨rfl, by decide⟩ (tr := false) (p := 1) ⟨rfl, .inr ⟨by decide, rfl⟩⟩ rfl rfl
    (by decide) (by decide)
  have hs : d.shape = [2, 2, 1] := h1
  have b : ∀ i j : Nat, i < 2 → j < 2 → InBounds d.shape [(i : Int), (j : Int), 0] := fun i j hi hj => by
    rw [hs]; exact .cons ⟨by omega, by omega⟩ (.cons ⟨by omega, by omega⟩ (.cons ⟨by omega, by omega⟩ .nil))
  refine ⟨d, h4, hs, ?_, ?_, ?_⟩
  · rw [show ([0, 0, 0] : List Int) = [((0 : Nat) : Int), ((0 : Nat) : Int), 0] from rfl, h3 _ (b 0 0 (by omega) (by omega))]; decide +kernel
  · rw [show ([0, 1, 0] : List Int) = [((0 : Nat) : Int), ((1 : Nat) : Int), 0] from rfl, h3 _ (b 0 1 (by omega) (by omega))]; decide +kernel
  · rw [show ([1, 0, 0] : List Int) = [((1 : Nat) : Int), ((0 : Nat) : Int), 0] from rfl, h3 _ (b 1 0 (by omega) (by omega))]; decide +kernel

/-- `vecdot(program, y, axis=0)`. -/
example (dbg : Bool) : ∃ d : DenseNd ℚ, (∀ out, exCalc.Linalg (exEnvQ dbg) (.vecdot (some 0)) ⟨[2], [1, 2]⟩ out ↔ out = .ret (.dense d)) ∧
    d.shape = [3] ∧ d.elem [0] = 1 ∧ d.elem [2] = -21 := by
  obtain ⟨d, ⟨h1, h2, h3⟩, h4⟩ := prog_linalg (fun _ => rfl) (fun _ => rfl) (exEnvQ_ok dbg) exCalc_lits exCalc_small exCalc_exact exCalc_type
    trivial (fn := .vecdot (some 0)) (y := ⟨[2], [1, 2]⟩) ⟨rfl, by decide⟩ (tr := true) (p := 0) ⟨rfl, rfl, rfl⟩ rfl rfl
    (by decide) (by decide)
  have hs : d.shape = [3] := h1
  refine ⟨d, h4, hs, ?_, ?_⟩
  · rw [h3 _ (by rw [hs]; exact .cons ⟨by omega, by omega⟩ .nil)]; decide +kernel
  · rw [h3 _ (by rw [hs]; exact .cons ⟨by omega, by omega⟩ .nil)]; decide +kernel

/-- Exceptions of the same program. -/
example (dbg : Bool) (out : PyRes (LinRes ℚ)) :
    (exCalc.Linalg (exEnvQ dbg) .matmul ⟨[2], [1, 2]⟩ out ↔ out = .raises .valueError) ∧
    (exCalc.Linalg (exEnvQ dbg) (.tensordot (.int 2)) ⟨[2], [1, 2]⟩ out ↔ out = .raises .notImplemented) ∧
    (exCalc.Linalg (exEnvQ dbg) (.tensordot (.pair [1] [0])) ⟨[], [1]⟩ out ↔ out = .raises .indexError) :=
  ⟨(prog_linalg_raises (exEnvQ_ok dbg) exCalc_lits exCalc_small ⟨rfl, by decide⟩ out).2.1 _ 2 3 exCalc_type trivial rfl rfl,
    (prog_linalg_raises (exEnvQ_ok dbg) exCalc_lits exCalc_small ⟨rfl, by decide⟩ out).2.1 _ 2 3 exCalc_type trivial rfl rfl,
    (prog_linalg_raises (exEnvQ_ok dbg) exCalc_lits exCalc_small ⟨rfl, by decide⟩ out).2.1 _ 2 3 exCalc_type trivial rfl rfl⟩

/-- No undefined behaviour, whatever the schedule. -/
example (dbg : Bool) (axes : AxesArg) {out : PyRes (LinRes ℚ)} (h : exCalc.Linalg (exEnvQ dbg) (.tensordot axes) ⟨[3, 2], [1, 2, 3, 4, 5, 6]⟩ out) :
    out ≠ .ub :=
  prog_linalg_safe (exEnvQ_ok dbg) exCalc_lits exCalc_small exCalc_type ⟨rfl, by decide⟩ (by decide) h

/-- `tensordot(x, y, axes=([1], [0]))` and `vecdot(x, y, axis=1)` of the `2 × 3 × 1` array of C76. -/
example (dbg : Bool) : (∃ r : CooNd ℚ, (∀ out, LinSparseDense (exEnvQ dbg) (.tensordot (.pair [1] [0])) (SpVal.nd exStatNd).obj
      ⟨[3, 2, 1], [1, 0, 10, 2, 100, 3]⟩ out ↔ out = .ret (.sparse (SpVal.nd r).obj)) ∧ r.shape = [2, 1, 2] ∧ r.val [0, 0, 1] = 24) ∧
    ∃ r : CooNd ℚ, (∀ out, LinSparseDense (exEnvQ dbg) (.vecdot (some 1)) (SpVal.nd exStatNd).obj
      ⟨[3], [1, 10, 100]⟩ out ↔ out = .ret (.sparse (SpVal.nd r).obj)) ∧ r.shape = [2, 1] ∧ r.val [1, 0] = 600 := by
  constructor
  · obtain ⟨r, h1, h2, h3, h4, h5, h6⟩ := py_tensordot_nd (exEnvQ_ok dbg) exStatNd_valid (show Ty.SizeOk 3 (.nd [2, 3, 1]) by decide)
      (axes := .pair [1] [0]) (axis := 1) (by decide) (.inr ⟨[], [], rfl⟩) (y := ⟨[3, 2, 1], [1, 0, 10, 2, 100, 3]⟩) ⟨rfl, by decide⟩
      (rest := [2, 1]) rfl (by decide) (by decide) (by decide)
    refine ⟨r, h1, h5, (h6 [0, 0] [1, 0] (.cons ⟨by omega, by decide⟩ (.cons ⟨by omega, by decide⟩ .nil))
      (.cons ⟨by omega, by omega⟩ (.cons ⟨by omega, by omega⟩ .nil))).trans ?_⟩
    decide +kernel
  · obtain ⟨r, h1, h2, h3, h4, h5⟩ := py_vecdot_nd (exEnvQ_ok dbg) exStatNd_valid (show Ty.SizeOk 3 (.nd [2, 3, 1]) by decide)
      (ax := some 1) (axis := 1) (by decide) (by decide) (.inr rfl) (y := ⟨[3], [1, 10, 100]⟩) ⟨rfl, by decide⟩ rfl
    refine ⟨r, h1, h4, (h5 [1, 0] (.cons ⟨by omega, by decide⟩ (.cons ⟨by omega, by decide⟩ .nil))).trans ?_⟩
    decide +kernel

/-- Exceptions of a `COOND`: a negative axis, an axis out of range. -/
example (dbg : Bool) (y : DenseNd ℚ) (hy : y.shape = [1, 2]) (out : PyRes (LinRes ℚ)) :
    (LinSparseDense (exEnvQ dbg) (.tensordot (.pair [-1] [0])) (SpVal.nd exStatNd).obj y out ↔ out = .raises .valueError) ∧
    (LinSparseDense (exEnvQ dbg) (.tensordot (.pair [3] [0])) (SpVal.nd exStatNd).obj y out ↔ out = .raises .indexError) :=
  ⟨py_linalg_nd_raises _ _ exStatNd_valid (show Ty.SizeOk 3 (.nd [2, 3, 1]) by decide) (by rw [hy]; rfl) out,
    py_linalg_nd_raises _ _ exStatNd_valid (show Ty.SizeOk 3 (.nd [2, 3, 1]) by decide) (by rw [hy]; rfl) out⟩
end

end Lacuna
