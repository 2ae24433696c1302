import Verif.Lemmas.PyProgNd
/-
C73: Python programs over all four sparse classes behave as their types say.
-/
set_option linter.unusedSectionVars false

namespace Lacuna
variable {V : Type}
variable [Zero V] [One V] [Add V] [Sub V] [Mul V] [Div V] [Neg V] [BEq V] [NatCast V] [HasFinite V]
  [HasFloor V] [HasPowf V] [HasAbs V] [HasLt V] [HasNan V]

/-- C73: a program over `CSR`, `CSC`, `COO` and `COOND` objects whose literals are valid and whose
intermediate results fit into memory does, in every execution, exactly what its type says.  If the
type checker accepts, the program returns an object of the computed class and shape that satisfies
the documented invariants of the class (native copy and arrays agree) and holds no more entries than
computed; otherwise it raises the computed exception. -/
theorem prog_sound {env : PyEnv V} (he : env.Ok) {e : Prog V} (hl : e.LitsOk) (hs : e.Small)
    {out : PyRes (PyObj V)} (h : e.Eval env out) :
    match e.check with
    | .ok τ => ∃ v : SpVal V, out = .ret v.obj ∧ v.Valid ∧ v.ty = τ ∧ v.nnz ≤ e.bound
    | .error x => out = .raises x := by
  obtain ⟨h1, h2⟩ := Prog.step he hl hs
  have := (h2 out).1 h
  subst this
  cases hc : e.check with
  | error x => rw [hc] at h1; rw [show e.value env = .error x from h1]; rfl
  | ok τ =>
    rw [hc] at h1
    obtain ⟨w, e1, hv, ht, hn⟩ := h1
    rw [e1]
    exact ⟨w, rfl, hv, ht, hn⟩

/-- The program has an outcome and only one: neither the schedule nor the build profile shows. -/
theorem prog_unique {env : PyEnv V} (he : env.Ok) {e : Prog V} (hl : e.LitsOk) (hs : e.Small) :
    ∃ out, ∀ o, e.Eval env o ↔ o = out := ⟨_, (Prog.step he hl hs).2⟩

/-- The outcome is the same with and without debug assertions and overflow checks. -/
theorem prog_profile {env : PyEnv V} (he : env.Ok) {e : Prog V} (hl : e.LitsOk) (hs : e.Small) (dbg : Bool)
    (out : PyRes (PyObj V)) : e.Eval { env with dbg := dbg } out ↔ e.Eval env out := by
  have he' : ({ env with dbg := dbg } : PyEnv V).Ok := ⟨he.pair, he.triple, he.nd, he.keys, he.threads⟩
  have hv : e.value { env with dbg := dbg } = e.value env := by
    clear hl hs
    induction e with
    | mat f r k ip ix d => rfl
    | coo r k row col d => rfl
    | nd s ix d => rfl
    | un op a ih => unfold Prog.value; rw [ih]
    | bin op a b iha ihb => unfold Prog.value; rw [iha, ihb]; rfl
    | scalar op a α ih => unfold Prog.value; rw [ih]
    | left op α a ih => unfold Prog.value; rw [ih]
    | T a ih => unfold Prog.value; rw [ih]
    | prune eps a ih => unfold Prog.value; rw [ih]
    | elimZeros a ih => unfold Prog.value; rw [ih]
    | ndop op arg a ih => unfold Prog.value; rw [ih]; rfl
    | mode f axis a ih => unfold Prog.value; rw [ih]; rfl
  rw [(Prog.step he' hl hs).2, (Prog.step he hl hs).2, hv]

/-- No undefined behaviour, and the program comes back. -/
theorem prog_safe {env : PyEnv V} (he : env.Ok) {e : Prog V} (hl : e.LitsOk) (hs : e.Small) :
    ¬ e.Eval env .ub ∧ ¬ e.Eval env .hang := by
  constructor
  all_goals
    intro h
    have := prog_sound he hl hs h
    cases hc : e.check with
    | error x => rw [hc] at this; cases this
    | ok τ => rw [hc] at this; obtain ⟨v, h1, -⟩ := this; cases h1

/-! ### what the documentation says -/

/-- `a.mode_unfold_to_csr(axis)` and `a.mode_unfold_to_csc(axis)` both put the axis on the rows:
whatever the array, the result has `shape[axis]` rows and one column per position in the other axes.
(The documentation of the CSC variant, coond.py 291–303, promises the transposed shape.) -/
theorem mode_unfold_shape {env : PyEnv V} (he : env.Ok) (f : Fmt) {a : Prog V} (hl : a.LitsOk) {s : List Nat}
    (ha : a.check = .ok (.nd s)) {axis : Nat} (hax : axis < s.length) (hlen : s.length ≤ usizeMax)
    (hs : (Prog.mode f axis a).Small) {out : PyRes (PyObj V)} (h : (Prog.mode f axis a).Eval env out) :
    ∃ v : SpVal V, out = .ret v.obj ∧ v.Valid ∧
      v.ty = .mat f (s.getD axis 0) (extents s (restAxes s.length [axis])).prod := by
  have := prog_sound he (e := .mode f axis a) hl hs h
  have hc : (Prog.mode f axis a).check = .ok (.mat f (s.getD axis 0) (extents s (restAxes s.length [axis])).prod) := by
    show a.check.bind _ = _
    rw [ha]
    show Ty.mode f axis (.nd s) = _
    unfold Ty.mode
    dsimp only
    rw [if_neg (by omega), Int.toNat_natCast, if_pos hax]
  rw [hc] at this
  obtain ⟨v, h1, h2, h3, -⟩ := this
  exact ⟨v, h1, h2, h3⟩

/-- The array of the class documentation (coond.py 75–82). -/
def exDocNd (v w : V) : Prog V := .nd [2, 3, 4] [0, 1, 2, 1, 2, 3] [v, w]

/-- The documented example `a.hadamard_broadcast(a.reshape((3, 2, 4)))` (coond.py 91–93) does not
return an array with two entries: it panics in every execution, as the shapes do not broadcast. -/
theorem documented_broadcast_panics {env : PyEnv V} (he : env.Ok) (v w : V) (out : PyRes (PyObj V)) :
    (Prog.bin .mul (exDocNd v w) (.ndop .reshape [3, 2, 4] (exDocNd v w))).Eval env out ↔ out = .raises .panic := by
  have hl : (exDocNd v w).LitsOk := by
    refine ⟨by decide, ⟨by simp, rfl, ?_⟩, by show ∀ i ∈ [0, 1, 2, 1, 2, 3], i ≤ i64Max; decide⟩
    show ∀ k < 2, ∀ d (h : d < [2, 3, 4].length), 0 ≤ [0, 1, 2, 1, 2, 3].getD (k * 3 + d) (0 : Int) ∧
      [0, 1, 2, 1, 2, 3].getD (k * 3 + d) (0 : Int) < (([2, 3, 4] : List Nat)[d] : Nat)
    decide
  have hs : (Prog.bin .mul (exDocNd v w) (.ndop .reshape [3, 2, 4] (exDocNd v w))).Small := by
    have h1 : Ty.SizeOk 2 (.nd [2, 3, 4]) := by decide
    have h2 : Ty.SizeOk 2 (.nd [3, 2, 4]) := by decide
    exact ⟨h1, ⟨h1, h2⟩, trivial⟩
  obtain ⟨h1, h2⟩ := Prog.step he (e := .bin .mul (exDocNd v w) (.ndop .reshape [3, 2, 4] (exDocNd v w))) ⟨hl, hl⟩ hs
  have h3 : (Prog.bin .mul (exDocNd v w) (.ndop .reshape [3, 2, 4] (exDocNd v w))).value env = .error .panic := h1
  rw [h2, h3]
  rfl

/-! ### without valid literals -/

/-- `COOND((2, 3), [0, 5], [v]).mode_unfold_to_csr(0).T`: the constructor never looks at the
coordinates (coond.py 98–107), the unfolding hands the column 5 of 3 to a `CSR` built with
`check=False`, and transposing it writes outside its buffer.  Every execution is undefined
behaviour, with the default `check=True`. -/
theorem coond_default_ub {env : PyEnv V} (he : env.Ok) (ht : env.threads < 2 ^ 20) (v : V) (out : PyRes (PyObj V)) :
    (Prog.T (.mode .csr 0 (.nd [2, 3] [0, 5] [v]))).Eval env out ↔ out = .ub := by
  have h1 : ∀ o, (Prog.nd [2, 3] [0, 5] [v]).Eval env o ↔ o = .ret (.nd ⟨[2, 3], [0, 5], [v]⟩) := fun o => Iff.rfl
  have hsort : env.tripleSort [((0, 5), v)] = [((0, 5), v)] := List.perm_singleton.1 (he.triple _).1
  have hcomp : unfoldComp env.tripleSort .csr ⟨2, 3, [0], [5], [v]⟩ = ⟨2, 3, [0, 1, 1], [5], [v]⟩ := by
    unfold unfoldComp cooToCsr
    rw [show (Coo.triples ⟨2, 3, [0], [5], [v]⟩) = [((0, 5), v)] from rfl, hsort]
    rfl
  have hk : ∀ o, UnfoldPtr env.dbg (⟨[2, 3], [0, 5], [v]⟩ : CooNd V) [0] o ↔ o = .ok ⟨2, 3, [0], [5], [v]⟩ := by
    have hr0 : axesToCoo (⟨[2, 3], [0, 5], [v]⟩ : CooNd V) [0] = some ⟨2, 3, [0], [5], [v]⟩ := rfl
    rcases unfoldPtr_core (dbg := env.dbg) (a := (⟨[2, 3], [0, 5], [v]⟩ : CooNd V)) (rowAxes := [0]) (by show 1 * 2 ≤ 2; decide)
      (by show 1 * 2 ≤ usizeMax; decide)
      with ⟨hr, -⟩ | ⟨r', hr, h1 | ⟨-, h2⟩⟩
    · rw [hr0] at hr; cases hr
    · rw [hr0] at hr; cases hr; exact h1
    · rw [hr0] at hr; cases hr
      exfalso
      revert h2
      unfold UnfoldExtra
      dsimp only
      rintro (h2 | ⟨-, h2⟩)
      · revert h2; show ¬ (i64Max < 8 * ((1 : Nat) : Int)); decide
      · revert h2; decide
  have h2 : ∀ o, (Prog.mode .csr 0 (.nd [2, 3] [0, 5] [v])).Eval env o ↔
      o = .ret (.mat .csr ⟨2, 3, [0, 1, 1], [5], [v], some ⟨2, 3, [0, 1, 1], [5], [v]⟩⟩) := by
    intro o
    show (∃ oa, (Prog.nd [2, 3] [0, 5] [v]).Eval env oa ∧ _) ↔ _
    simp only [h1, exists_eq_left]
    have hp : (⟨[2, 3], [0, 5], [v]⟩ : PyNd V).parts = .ok ⟨[2, 3], [0, 5], [v]⟩ :=
      pyNd_parts (a := (⟨[2, 3], [0, 5], [v]⟩ : CooNd V)) (by simp) rfl (by show 1 * 2 ≤ usizeMax; decide)
    have hu : pyUsize 0 = .ok 0 := pyUsize_nat (n := 0) (by decide)
    show ModeUnfold env .csr 0 (.nd ⟨[2, 3], [0, 5], [v]⟩) o ↔ _
    simp only [ModeUnfold, hp, hu]
    show (if 0 < 2 then (NdOp.unfold .csr).Kernel env (⟨[2, 3], [0, 5], [v]⟩ : CooNd V) [0] o else _) ↔ _
    rw [if_pos (by decide)]
    show (∃ o', UnfoldPtr env.dbg (⟨[2, 3], [0, 5], [v]⟩ : CooNd V) [0] o' ∧ _) ↔ _
    simp only [hk, exists_eq_left]
    show o = wrapMat .csr (unfoldComp env.tripleSort .csr ⟨2, 3, [0], [5], [v]⟩) ↔ _
    rw [hcomp]
    have hn : nativeNew .csr 2 3 [0, 1, 1] [5] [v] false = .ok ⟨2, 3, [0, 1, 1], [5], [v]⟩ := by
      rw [nativeNew_csr (r := 2) (c := 3) (pyUsize_nat (n := 2) (by decide)) (pyUsize_nat (n := 3) (by decide))]
      rfl
    unfold wrapMat PyMat.wrap
    rw [if_pos (by constructor <;> (show 8 * ((1 : Nat) : Int) ≤ i64Max; decide))]
    show o = (PyRes.ofExcept (.ok (⟨2, 3, [0, 1, 1], [5], [v],
      (nativeNew .csr 2 3 [0, 1, 1] [5] [v] false).toOption⟩ : PyMat V))).bind _ ↔ _
    rw [hn]
    rfl
  show (∃ oa, (Prog.mode .csr 0 (.nd [2, 3] [0, 5] [v])).Eval env oa ∧ _) ↔ _
  simp only [h2, exists_eq_left]
  show (∃ o, Settles (fun N => TransposePtr env.dbg true N env.pairSort env.threads ⟨2, 3, [0, 1, 1], [5], [v]⟩) o ∧ _) ↔ _
  have hs : ∀ o, Settles (fun N => TransposePtr env.dbg true N env.pairSort env.threads
      (⟨2, 3, [0, 1, 1], [5], [v]⟩ : Comp V)) o ↔ o = .error .ub := fun o => settles_iff 2 fun N hN o => by
    have key := transpose_csr_outside_ub (a := (⟨2, 3, [0, 1, 1], [5], [v]⟩ : Csr V)) (i := 0) (e := (5, v))
      ⟨by show 2 < 3; decide, by show (0 : Int) ≤ 0; decide,
        by show ∀ i < 2, ([0, 1, 1] : List Int).getD i 0 ≤ ([0, 1, 1] : List Int).getD (i + 1) 0; decide,
        by show (1 : Int) ≤ ((1 : Nat) : Int); decide, by show (1 : Int) ≤ ((1 : Nat) : Int); decide⟩
      ⟨by show 8 * ((3 : Nat) : Int) ≤ i64Max; decide, by show 8 * ((1 : Nat) : Int) ≤ i64Max; decide,
        by show 8 * ((1 : Nat) : Int) ≤ i64Max; decide, by show ∀ j ∈ [(5 : Int)], j ≤ i64Max; decide⟩
      (by show ∀ j ∈ [(5 : Int)], 0 ≤ j; decide) (threads := env.threads) (by omega) (by show max env.threads 1 * 3 * 8 * 3 ≤ _; omega) (by show 0 < 2; decide)
      (by show (5, v) ∈ [(5, v)]; simp) (by show ((3 : Nat) : Int) ≤ 5; decide) env.pairSort (F := N) hN env.dbg
    have up : ∀ x, TransposePtr env.dbg true N env.pairSort env.threads (⟨2, 3, [0, 1, 1], [5], [v]⟩ : Comp V) x →
        x = .error .ub := by
      intro x hx
      have := (key (x.map Comp.toCsr)).1 ⟨x, hx, rfl⟩
      cases x with
      | error y => cases this; rfl
      | ok y => cases this
    refine ⟨up o, ?_⟩
    rintro rfl
    obtain ⟨x, hx, -⟩ := (key (.error .ub)).2 rfl
    rw [← up x hx]; exact hx
  simp only [hs, exists_eq_left]
  rfl

/-! ### a program -/

section
local instance : HasFinite Int := ⟨fun _ => true⟩
local instance : HasFloor Int := ⟨fun x => x⟩
local instance : HasPowf Int := ⟨fun x y => x ^ y.toNat⟩
attribute [local instance] intLt intAbs intNan

/-- Merge sort, insertion sort and `dedup` in place of the unspecified orders, four threads. -/
def exEnv (dbg : Bool) : PyEnv Int :=
  ⟨dbg, 4, List.insertionSort pairLe, List.insertionSort tripleLe, fun l => l.mergeSort (fun a b => decide (a.1 ≤ b.1)),
    fun la lb => (la.filter fun k => lb.contains k).dedup⟩

theorem exEnv_ok (dbg : Bool) : (exEnv dbg).Ok :=
  ⟨isPairSort_insertionSort, isTripleSort_insertionSort, isSort_mergeSort, isCommonKeys_filter, by show 4 < 2 ^ 60; decide⟩

/-- `x = permute_dims(reshape(COOND((2, 3), …), (3, 2)), (1, 0)) * COOND((3,), …)`, then
`abs(x.axes_unfold_to_csr([1]).T.eliminate_zeros() - CSR(…) * 3)`. -/
def exPipe : Prog Int :=
  .un .abs (.bin .sub
    (.elimZeros (.T (.ndop (.unfold .csr) [1] (.bin .mul
      (.ndop .permute [1, 0] (.ndop .reshape [3, 2] (.nd [2, 3] [0, 0, 0, 2, 1, 1] [5, 6, 7])))
      (.nd [3] [0, 2] [2, -3])))))
    (.scalar .mul (.mat .csr 2 3 [0, 1, 2] [1, 0] [4, 9]) 3))

theorem exPipe_type : exPipe.check = .ok (.mat .csr 2 3) := by decide +kernel
theorem exPipe_lits : exPipe.LitsOk := by
  have h1 : ∀ k < 3, ∀ d (h : d < [2, 3].length), 0 ≤ ([0, 0, 0, 2, 1, 1] : List Int).getD (k * 2 + d) 0 ∧
      ([0, 0, 0, 2, 1, 1] : List Int).getD (k * 2 + d) 0 < (([2, 3] : List Nat)[d] : Nat) := by decide
  have h2 : ∀ k < 2, ∀ d (h : d < [3].length), 0 ≤ ([0, 2] : List Int).getD (k * 1 + d) 0 ∧
      ([0, 2] : List Int).getD (k * 1 + d) 0 < (([3] : List Nat)[d] : Nat) := by decide
  refine ⟨⟨⟨by decide, ⟨by decide, rfl, h1⟩, ?_⟩, by decide, ⟨by decide, rfl, h2⟩, ?_⟩, ?_, by simp⟩
  · show ∀ i ∈ ([0, 0, 0, 2, 1, 1] : List Int), i ≤ i64Max; decide
  · show ∀ i ∈ ([0, 2] : List Int), i ≤ i64Max; decide
  · show ∀ i ∈ ([1, 0] : List Int), i ≤ i64Max; decide

theorem exPipe_small : exPipe.Small := by decide +kernel

example (dbg : Bool) {out : PyRes (PyObj Int)} (h : exPipe.Eval (exEnv dbg) out) :
    ∃ v : SpVal Int, out = .ret v.obj ∧ v.Valid ∧ v.ty = .mat .csr 2 3 ∧ v.nnz ≤ 8 := by
  have := prog_sound (exEnv_ok dbg) exPipe_lits exPipe_small h
  rw [exPipe_type] at this
  exact this

/-- The same with the axes swapped for the product: the type checker predicts the panic. -/
example (dbg : Bool) {out : PyRes (PyObj Int)}
    (h : (Prog.bin .mul (.nd [2, 3] [0, 2] [5]) (.T (.mat .csr 2 3 [0, 1, 2] [1, 0] [4, 9]))).Eval (exEnv dbg) out) :
    out = .raises .notImplemented := by
  have hl : (Prog.bin .mul (.nd [2, 3] [0, 2] [5]) (.T (.mat .csr 2 3 [0, 1, 2] [1, 0] [4, 9])) : Prog Int).LitsOk := by
    refine ⟨⟨by decide, ⟨by decide, rfl, ?_⟩, ?_⟩, ?_, by simp⟩
    · show ∀ k < 1, ∀ d (h : d < [2, 3].length), 0 ≤ ([0, 2] : List Int).getD (k * 2 + d) 0 ∧
        ([0, 2] : List Int).getD (k * 2 + d) 0 < (([2, 3] : List Nat)[d] : Nat)
      decide
    · show ∀ i ∈ ([0, 2] : List Int), i ≤ i64Max; decide
    · show ∀ i ∈ ([1, 0] : List Int), i ≤ i64Max; decide
  exact prog_sound (exEnv_ok dbg) hl (by decide +kernel) h

example (dbg : Bool) (out : PyRes (PyObj Int)) :
    (Prog.T (.mode .csr 0 (.nd [2, 3] [0, 5] [9]))).Eval (exEnv dbg) out ↔ out = .ub :=
  coond_default_ub (exEnv_ok dbg) (by show 4 < 2 ^ 20; decide) 9 out

end

end Lacuna
