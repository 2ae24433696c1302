import Verif.Lemmas.PtrNd
import Verif.Props.NdShape
import Verif.Props.Unfold
import Verif.Props.PtrElementwise
/-
C62: `reshape` and the unfolding of N-D arrays at pointer level.  `CooNd::from_parts` compares the
number of indices with `nnz * ndim` even when `check` is false, so whatever Python passes, the
unchecked reads stay inside the index array: arbitrary index values, negative ones included, can
only cause a panic or a wrong index in the result, never an access out of bounds.  The one
exception is the size of the output of `reshape`: `nnz * ndim_new` is multiplied without a check
and wraps in a release build.
-/
namespace Lacuna
variable {V : Type}

/-- Every run of `reshape` on an array with enough indices ends in a panic or returns the result of
the list-level model; the index values are arbitrary. -/
theorem reshape_ptr_any {dbg : Bool} {a : CooNd V} {newShape : List Nat}
    (hI : a.data.length * a.shape.length ≤ a.indices.length) (hU : a.data.length * a.shape.length ≤ usizeMax)
    (hN : a.data.length * newShape.length ≤ usizeMax) {out : Except Fault (CooNd V)}
    (h : ReshapePtr dbg a newShape out) :
    out = .error .panic ∨ ∃ r, reshapeNd a newShape = some r ∧ out = .ok r := by
  rcases reshapePtr_core (dbg := dbg) hI hU hN with ⟨_, h1⟩ | ⟨r, hr, h1 | ⟨h1, _⟩⟩
  · exact .inl ((h1 out).1 h)
  · exact .inr ⟨r, hr, (h1 out).1 h⟩
  · exact .inl ((h1 out).1 h)

/-- In a release build there is exactly one outcome: the list-level result, or a panic where it has
none. -/
theorem reshape_ptr_release {a : CooNd V} {newShape : List Nat}
    (hI : a.data.length * a.shape.length ≤ a.indices.length) (hU : a.data.length * a.shape.length ≤ usizeMax)
    (hN : 8 * ((a.data.length * newShape.length : Nat) : Int) ≤ i64Max) (out : Except Fault (CooNd V)) :
    ReshapePtr false a newShape out ↔ out = match reshapeNd a newShape with
      | some r => .ok r
      | none => .error .panic := by
  have hN' : a.data.length * newShape.length ≤ usizeMax := by unfold i64Max at hN; unfold usizeMax; omega
  rcases reshapePtr_core (dbg := false) hI hU hN' with ⟨hr, h1⟩ | ⟨r, hr, h1 | ⟨h1, h2⟩⟩
  · rw [hr]; exact h1 out
  · rw [hr]; exact h1 out
  · rcases h2 with h2 | ⟨h2, _⟩
    · omega
    · cases h2

theorem CooNd.WF.nonneg {a : CooNd V} (h : a.WF) : ∀ i ∈ a.indices, 0 ≤ i := by
  intro i hi
  obtain ⟨p, hp, rfl⟩ := List.getElem_of_mem hi
  have hn : 0 < a.shape.length := List.length_pos_iff.2 h.rank
  have hl := h.length
  have hk : p / a.shape.length < a.data.length := by
    rw [Nat.div_lt_iff_lt_mul hn]; omega
  have hd := Nat.mod_lt p hn
  have := (h.bounds _ hk _ hd).1
  unfold CooNd.coord at this
  rw [Nat.mul_comm, Nat.div_add_mod, List.getD_eq_getElem?_getD, List.getElem?_eq_getElem hp] at this
  exact this

/-- C62: on a well-formed array, with or without debug assertions and for every schedule, `reshape`
returns, and the result holds the same values at the same row-major positions. -/
theorem reshape_ptr_correct {dbg : Bool} {a : CooNd V} (ha : a.WF) (hai : a.I64) {newShape : List Nat}
    (hs : newShape ≠ []) (hp : newShape.prod = a.shape.prod) (hpos : 0 < a.shape.prod) (hle : a.shape.prod ≤ usizeMax)
    (hfit : ∀ s ∈ newShape, (s : Int) ≤ 2 ^ 63) (hU : a.data.length * a.shape.length ≤ usizeMax)
    (hN : 8 * ((a.data.length * newShape.length : Nat) : Int) ≤ i64Max) :
    ∃ r, (∀ out, ReshapePtr dbg a newShape out ↔ out = .ok r) ∧ r.shape = newShape ∧ r.WF ∧
      r.entries.map (fun e => (rowMajor newShape e.1, e.2)) = a.entries.map (fun e => (rowMajor a.shape e.1, e.2)) := by
  have hN' : a.data.length * newShape.length ≤ usizeMax := by unfold i64Max at hN; unfold usizeMax; omega
  have hruns := reshape_runs ha hai hp hpos hle
  rcases reshapePtr_core (dbg := dbg) (newShape := newShape) (Nat.le_of_eq ha.length.symm) hU hN'
    with ⟨hr, _⟩ | ⟨r, hr, h1 | ⟨_, h2⟩⟩
  · rw [hr] at hruns; cases hruns
  · obtain ⟨c1, c2, _, _, c5⟩ := reshape_correct ha hai hs hfit hr
    exact ⟨r, h1, c1, c2, c5⟩
  · obtain ⟨_, c2, _⟩ := reshape_correct ha hai hs hfit hr
    rcases h2 with h2 | ⟨_, ⟨i, hi, hneg⟩ | ⟨i, hi, hneg⟩⟩
    · omega
    · have := ha.nonneg i hi; omega
    · have := c2.nonneg i hi; omega

example : ∃ r, (∀ out, ReshapePtr true exN [3, 2] out ↔ out = .ok r) ∧ r.shape = [3, 2] ∧ r.WF ∧
    r.entries.map (fun e => (rowMajor [3, 2] e.1, e.2)) = exN.entries.map (fun e => (rowMajor exN.shape e.1, e.2)) :=
  reshape_ptr_correct exN_wf (by unfold CooNd.I64; decide) (by decide) (by decide) (by decide) (by decide) (by decide) (by decide) (by decide)

/-- An array whose indices are outside the shape, one of them negative. -/
def exStray : CooNd Int := ⟨[2, 3], [5, 0, 0, 7, -1, 0], [1, 2, 3]⟩
example : ∀ out, ReshapePtr false exStray [6] out → out = .error .panic := by
  intro out h
  rw [reshape_ptr_release (by decide) (by decide) (by decide)] at h
  exact h
/-- Without the negative index the call returns indices outside the new shape. -/
def exStray2 : CooNd Int := ⟨[2, 3], [5, 0, 0, 7], [1, 2]⟩
example (out : Except Fault (CooNd Int)) : ReshapePtr false exStray2 [3, 2] out ↔ out = .ok ⟨[3, 2], [7, 1, 3, 1], [1, 2]⟩ := by
  rw [reshape_ptr_release (by decide) (by decide) (by decide)]
  exact Iff.rfl

/-! ### the wrapped size -/

/-- With debug assertions the overflow of `nnz * ndim_new` is a panic. -/
theorem reshape_size_debug {a : CooNd V} {newShape : List Nat} (hN : usizeMax < a.data.length * newShape.length)
    (out : Except Fault (CooNd V)) (h : ReshapePtr true a newShape out) : out = .error .panic := by
  have h0 : a.data.length ≠ 0 := by intro h0; rw [h0] at hN; omega
  have hm : mulUsize true a.data.length newShape.length = .error .panic := by
    unfold mulUsize
    rw [if_neg (by omega)]; rfl
  unfold ReshapePtr at h
  cases hc : reshapeCheckP a newShape with
  | error x =>
    rw [hc] at h
    simp only [] at h
    unfold reshapeCheckP at hc
    rcases expectP_cases (productChecked a.shape) with ⟨_, e⟩ | ⟨n, _, e⟩
    · rw [e, err_bind] at hc; cases hc; exact h
    rw [e, ok_bind] at hc
    rcases expectP_cases (productChecked newShape) with ⟨_, e⟩ | ⟨n', _, e⟩
    · rw [e, err_bind] at hc; cases hc; exact h
    rw [e, ok_bind] at hc
    split at hc
    · cases hc
    · cases hc; exact h
  | ok u =>
    rw [hc] at h
    simp only [] at h
    rw [if_neg h0] at h
    have hp : reshapePlanP true a newShape = .error .panic := by
      unfold reshapePlanP
      rcases expectP_cases (strides? a.shape) with ⟨_, e⟩ | ⟨os, _, e⟩
      · rw [e]; rfl
      rcases expectP_cases (strides? newShape) with ⟨_, e'⟩ | ⟨ns, _, e'⟩
      · rw [e, e']; rfl
      rw [e, e', hm]; rfl
    rw [hp] at h
    exact h

/-- In a release build the size wraps, a buffer that is too small is allocated, and every run writes
outside it. -/
theorem reshape_size_wraps {a r : CooNd V} {newShape : List Nat} (hr : reshapeNd a newShape = some r)
    (hI : a.data.length * a.shape.length ≤ a.indices.length) (hU : a.data.length * a.shape.length ≤ usizeMax)
    (hN : usizeMax < a.data.length * newShape.length)
    (hz : 8 * ((a.data.length * newShape.length % 2 ^ 64 : Nat) : Int) ≤ i64Max)
    (out : Except Fault (CooNd V)) : ReshapePtr false a newShape out ↔ out = .error .ub := by
  have h0 : a.data.length ≠ 0 := by intro h0; rw [h0] at hN; omega
  have hpos : 0 < newShape.length := by
    rcases Nat.eq_zero_or_pos newShape.length with h | h
    · rw [h] at hN; omega
    · exact h
  have hm : mulUsize false a.data.length newShape.length = .ok (a.data.length * newShape.length % 2 ^ 64) := by
    unfold mulUsize
    rw [if_neg (by omega)]; rfl
  cases h1 : productChecked a.shape with
  | none => unfold reshapeNd at hr; rw [h1] at hr; cases hr
  | some n =>
  cases h2 : productChecked newShape with
  | none => unfold reshapeNd at hr; rw [h1, h2] at hr; cases hr
  | some n' =>
  by_cases hn : n = n'
  swap
  · unfold reshapeNd at hr; rw [h1, h2] at hr; simp only [Option.bind_some] at hr; rw [if_pos hn] at hr; cases hr
  subst hn
  cases h3 : strides? a.shape with
  | none =>
    unfold reshapeNd at hr; rw [h1, h2, h3] at hr; simp only [Option.bind_some] at hr
    rw [if_neg (by simp), if_neg h0] at hr; cases hr
  | some os =>
  cases h4 : strides? newShape with
  | none =>
    unfold reshapeNd at hr; rw [h1, h2, h3, h4] at hr; simp only [Option.bind_some] at hr
    rw [if_neg (by simp), if_neg h0] at hr; cases hr
  | some ns =>
  have hns := strides?_len h4
  have hc : reshapeCheckP a newShape = .ok () := by
    unfold reshapeCheckP
    rw [h1, h2]
    simp only [expectP, ok_bind]
    exact if_pos trivial
  have hplan : reshapePlanP false a newShape =
      .ok (os, ns, List.replicate (a.data.length * newShape.length % 2 ^ 64) 0) := by
    unfold reshapePlanP
    rw [h3, h4]
    simp only [expectP, ok_bind]
    rw [hm, ok_bind, zerosP_ok hz]
    rfl
  have hlin : ∀ k, k < a.data.length → entryLin a os k ≠ none := by
    rcases reshapeNd_entries h1 h2 h0 h3 h4 with ⟨h, _⟩ | ⟨h, _⟩
    · rw [h] at hr; cases hr
    · exact h
  generalize hcap : a.data.length * newShape.length % 2 ^ 64 = cap at hplan hz
  have hcu : cap ≤ usizeMax := by
    have := Nat.mod_lt (a.data.length * newShape.length) (y := 2 ^ 64) (by decide)
    unfold usizeMax; omega
  have hkc : cap / ns.length < a.data.length := by
    rw [hns, Nat.div_lt_iff_lt_mul hpos]; omega
  have hitem := fun k hk => reshapeItemP_noPanic (ns := ns) (cap := cap) hI hU (strides?_len h3) (k := k) hk (hlin k hk)
  have hub : reshapeItemP false a os ns ns.length cap (cap / ns.length) = .error .ub :=
    (hitem _ hkc).2 hcu rfl (by rw [hns]; exact hpos)
  unfold ReshapePtr
  rw [hc]
  simp only []
  rw [if_neg h0, hplan]
  simp only [List.length_replicate]
  rw [← hns]
  constructor
  · rintro ⟨oe, h5, h6⟩
    cases oe with
    | error x =>
      obtain ⟨k, hk, he⟩ := h5
      rcases (hitem k (List.mem_range.1 hk)).1 with h | ⟨y, h⟩
      · rw [h] at he; cases he; exact h6
      · rw [h] at he; cases he
    | ok evs =>
      have h5' : (List.range a.data.length).map (reshapeItemP false a os ns ns.length cap) = evs.map .ok := h5
      have : reshapeItemP false a os ns ns.length cap (cap / ns.length) ∈ evs.map (Except.ok (ε := Fault)) := by
        rw [← h5']; exact List.mem_map_of_mem (List.mem_range.2 hkc)
      obtain ⟨y, _, hy⟩ := List.mem_map.1 this
      rw [hub] at hy; cases hy
  · rintro rfl
    exact ⟨.error .ub, ⟨_, List.mem_range.2 hkc, hub⟩, rfl⟩

/-! ### unfolding -/

/-- Every run of the unfolding on an array with enough indices ends in a panic or returns the result
of the list-level model; the index values are arbitrary. -/
theorem unfold_ptr_any {dbg : Bool} {a : CooNd V} {rowAxes : List Nat}
    (hI : a.data.length * a.shape.length ≤ a.indices.length) (hU : a.data.length * a.shape.length ≤ usizeMax)
    {out : Except Fault (Coo V)} (h : UnfoldPtr dbg a rowAxes out) :
    out = .error .panic ∨ ∃ r, axesToCoo a rowAxes = some r ∧ out = .ok r := by
  rcases unfoldPtr_core (dbg := dbg) (rowAxes := rowAxes) hI hU with ⟨_, h1⟩ | ⟨r, hr, h1 | ⟨h1, _⟩⟩
  · exact .inl ((h1 out).1 h)
  · exact .inr ⟨r, hr, (h1 out).1 h⟩
  · exact .inl ((h1 out).1 h)

/-- In a release build there is exactly one outcome, on both sides of the threshold between the
sequential and the parallel loop. -/
theorem unfold_ptr_release {a : CooNd V} {rowAxes : List Nat}
    (hI : a.data.length * a.shape.length ≤ a.indices.length) (hU : a.data.length * a.shape.length ≤ usizeMax)
    (hN : 8 * (a.data.length : Int) ≤ i64Max) (out : Except Fault (Coo V)) :
    UnfoldPtr false a rowAxes out ↔ out = match axesToCoo a rowAxes with
      | some r => .ok r
      | none => .error .panic := by
  rcases unfoldPtr_core (dbg := false) (rowAxes := rowAxes) hI hU with ⟨hr, h1⟩ | ⟨r, hr, h1 | ⟨h1, h2⟩⟩
  · rw [hr]; exact h1 out
  · rw [hr]; exact h1 out
  · rcases h2 with h2 | ⟨h2, _⟩
    · omega
    · cases h2

/-- C62: on a well-formed array the unfolding returns, with or without debug assertions and for
every schedule, and every cell is found at its row and column. -/
theorem unfold_ptr_correct {dbg : Bool} [Add V] [Zero V] {a : CooNd V} (ha : a.WF) (hai : a.I64) {rowAxes : List Nat}
    (hlt : ∀ p ∈ rowAxes, p < a.shape.length) (hn : rowAxes.Nodup)
    (p1 : 0 < (extents a.shape rowAxes).prod) (g1 : ((extents a.shape rowAxes).prod : Int) ≤ 2 ^ 63)
    (p2 : 0 < (extents a.shape (restAxes a.shape.length rowAxes)).prod)
    (g2 : ((extents a.shape (restAxes a.shape.length rowAxes)).prod : Int) ≤ 2 ^ 63)
    (hU : a.data.length * a.shape.length ≤ usizeMax) (hN : 8 * (a.data.length : Int) ≤ i64Max) :
    ∃ r, (∀ out, UnfoldPtr dbg a rowAxes out ↔ out = .ok r) ∧ r.WF ∧
      r.nrows = (extents a.shape rowAxes).prod ∧
      r.ncols = (extents a.shape (restAxes a.shape.length rowAxes)).prod ∧
      ∀ x, InBounds a.shape x → r.val (unfoldRow a.shape rowAxes x) (unfoldCol a.shape rowAxes x) = a.val x := by
  obtain ⟨r', hr', e1, e2⟩ := unfold_coo_runs ha hai hlt hn p1 (by unfold usizeMax; omega) p2 (by unfold usizeMax; omega)
  have hrow : (r'.nrows : Int) ≤ 2 ^ 63 := by rw [e1]; exact g1
  have hcol : (r'.ncols : Int) ≤ 2 ^ 63 := by rw [e2]; exact g2
  obtain ⟨_, _, _, hw, _⟩ := unfold_coo_spec ha hai hr' hrow hcol
  rcases unfoldPtr_core (dbg := dbg) (rowAxes := rowAxes) (Nat.le_of_eq ha.length.symm) hU
    with ⟨hr, _⟩ | ⟨r, hr, h1 | ⟨_, h2⟩⟩
  · rw [hr] at hr'; cases hr'
  · rw [hr] at hr'; cases hr'
    exact ⟨_, h1, hw, e1, e2, fun x hx => unfold_coo_correct ha hai hr hrow hcol hx⟩
  · rw [hr] at hr'; cases hr'
    rcases h2 with h2 | ⟨_, ⟨i, hi, hneg⟩ | ⟨i, hi, hneg⟩ | ⟨i, hi, hneg⟩⟩
    · omega
    · have := ha.nonneg i hi; omega
    · have := (hw.row_bounds i hi).1; omega
    · have := (hw.col_bounds i hi).1; omega

example : ∃ r, (∀ out, UnfoldPtr true exN [1] out ↔ out = .ok r) ∧ r.WF ∧ r.nrows = 3 ∧ r.ncols = 2 ∧
    ∀ x, InBounds exN.shape x → r.val (unfoldRow exN.shape [1] x) (unfoldCol exN.shape [1] x) = exN.val x :=
  unfold_ptr_correct exN_wf (by unfold CooNd.I64; decide) (by decide) (by decide) (by decide) (by decide) (by decide) (by decide)
    (by decide) (by decide)

/-! ### the Python bindings: whatever the arguments -/

theorem fromParts_lengths {shape : List Nat} {indices : List Int} {data : List V} {check : Bool} {a : CooNd V}
    (h : CooNd.fromParts shape indices data check = .ok a) :
    a = ⟨shape, indices, data⟩ ∧ indices.length = data.length * shape.length ∧ data.length * shape.length ≤ usizeMax := by
  unfold CooNd.fromParts at h
  split at h
  · cases h
  split at h
  · cases h
  cases hm : checkedMul data.length shape.length with
  | none => rw [hm] at h; cases h
  | some e =>
    rw [hm] at h
    simp only [] at h
    unfold checkedMul at hm
    split at hm
    swap
    · cases hm
    cases hm
    split at h
    · cases h
    rename_i hle hl
    have hl : indices.length = data.length * shape.length := by omega
    split at h
    · cases hi : checkNdIdx shape shape indices with
      | error m => rw [hi] at h; cases h
      | ok u => rw [hi] at h; cases h; exact ⟨rfl, hl, hle⟩
    · cases h; exact ⟨rfl, hl, hle⟩

theorem convertDims_ok {m : String} : ∀ {l : List Int} {x : List Nat}, convertDims m l = .ok x →
    x = l.map Int.toNat ∧ ∀ i ∈ l, 0 ≤ i
  | [], x, h => by cases h; exact ⟨rfl, by simp⟩
  | i :: l, x, h => by
    rw [convertDims] at h
    split at h
    · cases h
    · rename_i hi
      cases hl : convertDims m l with
      | error e => rw [hl] at h; cases h
      | ok y =>
        rw [hl] at h
        cases h
        obtain ⟨h1, h2⟩ := convertDims_ok hl
        refine ⟨by rw [h1]; rfl, ?_⟩
        intro j hj
        rcases List.mem_cons.1 hj with rfl | hj
        · omega
        · exact h2 j hj

theorem convertDims_of {m : String} {l : List Int} (h : ∀ i ∈ l, 0 ≤ i) : convertDims m l = .ok (l.map Int.toNat) := by
  induction l with
  | nil => rfl
  | cons i l ih =>
    have := h i (by simp)
    rw [convertDims, if_neg (by omega), ih fun j hj => h j (by simp [hj])]
    rfl

/-- C62: `COOND.reshape` on arbitrary arrays, checked or not: an exception, a panic, or the result of
the list-level model on the array built from the arguments — never undefined behaviour, as long as
the size of the new index array fits `usize`. -/
theorem py_reshape_safe {dbg check : Bool} {shape indices newShape : List Int} {data : List V}
    (hN : data.length * newShape.length ≤ usizeMax) {out : Except Fault (Except String (CooNd V))}
    (h : PyReshapePtr dbg shape indices data newShape check out) :
    out = .error .panic ∨ (∃ m, out = .ok (.error m)) ∨
    ∃ r, out = .ok (.ok r) ∧ reshapeNd ⟨shape.map Int.toNat, indices, data⟩ (newShape.map Int.toNat) = some r := by
  unfold PyReshapePtr at h
  cases h1 : convertDims "shape dimensions must be non-negative" shape with
  | error m => rw [h1] at h; exact .inr (.inl ⟨m, h⟩)
  | ok sh =>
  cases h2 : convertDims "shape dimensions must be non-negative" newShape with
  | error m => rw [h1, h2] at h; exact .inr (.inl ⟨m, h⟩)
  | ok nsh =>
  rw [h1, h2] at h
  simp only [] at h
  have e1 := (convertDims_ok h1).1
  have e2 := (convertDims_ok h2).1
  cases h3 : CooNd.fromParts sh indices data check with
  | error m => rw [h3] at h; exact .inr (.inl ⟨m, h⟩)
  | ok a =>
  rw [h3] at h
  simp only [] at h
  obtain ⟨o, ho, rfl⟩ := h
  obtain ⟨rfl, hl, hu⟩ := fromParts_lengths h3
  rcases reshape_ptr_any (a := ⟨sh, indices, data⟩) (Nat.le_of_eq hl.symm) hu (by rw [e2]; simpa using hN) ho with rfl | ⟨r, hr, rfl⟩
  · exact .inl rfl
  · exact .inr (.inr ⟨r, rfl, by rw [← e1, ← e2]; exact hr⟩)

/-- The exception: entries and new axes whose product exceeds `usize`, here `n` entries of a
one-element array reshaped to `m` axes of extent 1.  The arguments are valid, `check` is on, and every
run of the release build writes outside the index array. -/
theorem py_reshape_wraps (v : V) {n m : Nat} (hn : n ≤ usizeMax) (hnm : usizeMax < n * m)
    (hz : 8 * ((n * m % 2 ^ 64 : Nat) : Int) ≤ i64Max) (out : Except Fault (Except String (CooNd V))) :
    PyReshapePtr false [1] (List.replicate n 0) (List.replicate n v) (List.replicate m 1) true out ↔
      out = .error .ub := by
  have hw : (⟨[1], List.replicate n 0, List.replicate n v⟩ : CooNd V).WF := by
    refine ⟨by simp, by simp, ?_⟩
    intro k hk d hd
    simp only [List.length_replicate] at hk
    simp only [List.length_cons, List.length_nil] at hd
    have hd0 : d = 0 := by omega
    subst hd0
    unfold CooNd.coord
    simp [hk]
  have hi : (⟨[1], List.replicate n 0, List.replicate n v⟩ : CooNd V).I64 := by
    intro i hi
    rw [(List.mem_replicate.1 hi).2]; decide
  have hf : CooNd.fromParts [1] (List.replicate n 0) (List.replicate n v) true =
      .ok ⟨[1], List.replicate n 0, List.replicate n v⟩ :=
    (coond_fromParts_iff _ _ _ _).2 ⟨by simpa using hn, rfl, hw⟩
  have e1 : convertDims "shape dimensions must be non-negative" [1] = .ok [1] := rfl
  have e2 : convertDims "shape dimensions must be non-negative" (List.replicate m 1) = .ok (List.replicate m 1) := by
    rw [convertDims_of (by intro i hi; rw [(List.mem_replicate.1 hi).2]; decide)]
    simp
  have hruns := reshape_runs (newShape := List.replicate m 1) hw hi (by simp) (by simp) (by simp; decide)
  obtain ⟨r, hr⟩ := Option.isSome_iff_exists.1 hruns
  have key := reshape_size_wraps hr (by simp) (by simpa using hn) (by simpa using hnm) (by simpa using hz)
  unfold PyReshapePtr
  rw [e1, e2]
  simp only []
  rw [hf]
  simp only []
  constructor
  · rintro ⟨o, ho, rfl⟩
    rw [(key o).1 ho]; rfl
  · rintro rfl
    exact ⟨_, (key _).2 rfl, rfl⟩

example (out : Except Fault (Except String (CooNd Int))) :
    PyReshapePtr false [1] (List.replicate (2 ^ 32) 0) (List.replicate (2 ^ 32) 1) (List.replicate (2 ^ 32) 1) true out ↔
      out = .error .ub :=
  py_reshape_wraps 1 (by decide) (by decide) (by decide) out

/-- C62: unfolding from Python is never undefined behaviour, for all arguments. -/
theorem py_unfold_safe {dbg check : Bool} {shape indices rowAxes : List Int} {data : List V}
    {out : Except Fault (Except String (Coo V))}
    (h : PyUnfoldPtr dbg shape indices data rowAxes check out) :
    out = .error .panic ∨ (∃ m, out = .ok (.error m)) ∨
    ∃ r, out = .ok (.ok r) ∧ axesToCoo ⟨shape.map Int.toNat, indices, data⟩ (rowAxes.map Int.toNat) = some r := by
  unfold PyUnfoldPtr at h
  cases h1 : convertDims "shape dimensions must be non-negative" shape with
  | error m => rw [h1] at h; exact .inr (.inl ⟨m, h⟩)
  | ok sh =>
  cases h2 : convertDims "row_axes must be non-negative" rowAxes with
  | error m => rw [h1, h2] at h; exact .inr (.inl ⟨m, h⟩)
  | ok axes =>
  rw [h1, h2] at h
  simp only [] at h
  have e1 := (convertDims_ok h1).1
  have e2 := (convertDims_ok h2).1
  cases h3 : CooNd.fromParts sh indices data check with
  | error m => rw [h3] at h; exact .inr (.inl ⟨m, h⟩)
  | ok a =>
  rw [h3] at h
  simp only [] at h
  obtain ⟨o, ho, rfl⟩ := h
  obtain ⟨rfl, hl, hu⟩ := fromParts_lengths h3
  rcases unfold_ptr_any (a := ⟨sh, indices, data⟩) (Nat.le_of_eq hl.symm) hu ho with rfl | ⟨r, hr, rfl⟩
  · exact .inl rfl
  · exact .inr (.inr ⟨r, rfl, by rw [← e1, ← e2]; exact hr⟩)

/-- The length check is what protects the unchecked reads: an array that was not built by
`from_parts` and has too few indices is read past the end. -/
theorem unfold_short_ub (v : V) (dbg : Bool) (out : Except Fault (Coo V)) :
    UnfoldPtr dbg ⟨[2, 2], [0, 1, 1], [v, v]⟩ [0] out ↔ out = .error .ub := by
  unfold UnfoldPtr
  have hp : unfoldPlanP (⟨[2, 2], [0, 1, 1], [v, v]⟩ : CooNd V) [0] = .ok ⟨2, 2, [1], [1], [1]⟩ := rfl
  rw [hp]
  simp only []
  rw [if_neg (by simp)]
  unfold UnfoldLoopPtr
  rw [show ([v, v] : List V).length = 2 from rfl, zerosP_ok (by decide)]
  simp only []
  rw [if_pos (by decide)]
  have h0 : linP dbg [0, 1, 1] 0 (strideOrP [1]) [0] = .ok 0 := by cases dbg <;> decide
  have h1 : linP dbg [0, 1, 1] 0 (strideOrP [1]) [1] = .ok 1 := by cases dbg <;> decide
  have h2 : linP dbg [0, 1, 1] 2 (strideOrP [1]) [0] = .ok 1 := by cases dbg <;> decide
  have h3 : linP dbg [0, 1, 1] 2 (strideOrP [1]) [1] = .error .ub := by cases dbg <;> decide
  have e : (List.range 2).foldlM (unfoldStepP dbg (⟨[2, 2], [0, 1, 1], [v, v]⟩ : CooNd V) [0] ⟨2, 2, [1], [1], [1]⟩)
      ([0, 0], [0, 0]) = .error .ub := by
    have s0 : unfoldStepP dbg (⟨[2, 2], [0, 1, 1], [v, v]⟩ : CooNd V) [0] ⟨2, 2, [1], [1], [1]⟩
        ([0, 0], [0, 0]) 0 = .ok ([0, 0], [1, 0]) := by
      unfold unfoldStepP unfoldLinP
      simp only []
      rw [mulUsize_eq (by decide), ok_bind, Nat.zero_mul, h0, ok_bind, h1]
      cases dbg <;> decide
    have s1 : unfoldStepP dbg (⟨[2, 2], [0, 1, 1], [v, v]⟩ : CooNd V) [0] ⟨2, 2, [1], [1], [1]⟩
        ([0, 0], [1, 0]) 1 = .error .ub := by
      unfold unfoldStepP unfoldLinP
      simp only []
      rw [mulUsize_eq (by decide), ok_bind, Nat.one_mul, show ([2, 2] : List Nat).length = 2 from rfl, h2,
        ok_bind, h3]
      rfl
    rw [show List.range 2 = [0, 1] from rfl, List.foldlM_cons, s0, ok_bind, List.foldlM_cons, s1]
    rfl
  rw [show List.replicate 2 (0 : Int) = [0, 0] from rfl, e]
  exact Iff.rfl

/-- Two entries and three indices: refused by `from_parts`, also without checks. -/
example : CooNd.fromParts [2, 2] [0, 1, 1] [1, 2] false = (.error "indices length must be nnz * ndim" : Except String (CooNd Int)) := by
  unfold CooNd.fromParts checkedMul
  rw [if_neg (by decide), if_neg (by decide), if_pos (by decide)]
  simp only []
  rw [if_pos (by decide)]
/-- A negative index, unchecked: accepted, and the unfolding panics (overflow of the linear index). -/
example (out : Except Fault (Except String (Coo Int))) :
    PyUnfoldPtr false [2, 3] [0, 0, -1, 0] [1, 2] [0, 1] false out → out = .error .panic := by
  intro h
  unfold PyUnfoldPtr at h
  have hf : CooNd.fromParts [2, 3] [0, 0, -1, 0] [1, 2] false =
      (.ok ⟨[2, 3], [0, 0, -1, 0], [1, 2]⟩ : Except String (CooNd Int)) := by
    unfold CooNd.fromParts checkedMul
    rw [if_neg (by decide), if_neg (by decide), if_pos (by decide)]
    simp only []
    rw [if_neg (by decide)]
    rfl
  rw [convertDims_of (by decide), convertDims_of (by decide)] at h
  simp only [] at h
  rw [show List.map Int.toNat [2, 3] = [2, 3] from rfl, show List.map Int.toNat [0, 1] = [0, 1] from rfl, hf] at h
  obtain ⟨o, ho, rfl⟩ := h
  rw [(unfold_ptr_release (V := Int) (a := ⟨[2, 3], [0, 0, -1, 0], [1, 2]⟩) (rowAxes := [0, 1]) (by decide)
    (by show 2 * 2 ≤ usizeMax; decide) (by show 8 * ((2 : Nat) : Int) ≤ i64Max; unfold i64Max; omega) o).1 ho]
  rfl

end Lacuna
