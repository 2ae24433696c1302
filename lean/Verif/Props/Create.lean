import Verif.Model.Create
import Verif.Lemmas.Accum
import Verif.Lemmas.Val
import Verif.Lemmas.Scatter
/-
C42: creation routines.
-/
namespace Lacuna
universe u
variable {V : Type u}

/-- The compressed matrix with `n` empty lines. -/
theorem ofRows_empty (n m : Nat) :
    (⟨n, m, List.replicate (n + 1) 0, [], []⟩ : Comp V) = Comp.ofRows m (List.replicate n []) := by
  unfold Comp.ofRows
  congr 1
  · simp
  · apply List.ext_getElem
    · simp
    · intro i h1 h2
      have := prefixPtr_getD ((List.replicate n ([] : List (Int × V))).map List.length) i (by simp at h1 ⊢; omega)
      rw [List.getD_eq_getElem?_getD, List.getElem?_eq_getElem h2, Option.getD_some] at this
      rw [this]
      simp
  · simp
  · simp

/-- The compressed square matrix with `d i` on the diagonal. -/
theorem ofRows_diag (d : List V) :
    (⟨d.length, d.length, (List.range (d.length + 1)).map fun (i : Nat) => (i : Int), (List.range d.length).map fun (i : Nat) => (i : Int), d⟩ : Comp V) =
      Comp.ofRows d.length (d.zipIdx.map fun e => [((e.2 : Int), e.1)]) := by
  unfold Comp.ofRows
  have hfl : ∀ (l : List V) (k : Nat), ((l.zipIdx k).map fun e => [((e.2 : Int), e.1)]).flatten =
      (l.zipIdx k).map fun e => ((e.2 : Int), e.1) := by
    intro l k
    induction l generalizing k with
    | nil => rfl
    | cons x l ih => simp [List.zipIdx_cons, ih]
  congr 1
  · simp
  · apply List.ext_getElem
    · simp
    · intro i h1 h2
      have := prefixPtr_getD ((d.zipIdx.map fun e => [((e.2 : Int), e.1)]).map List.length) i (by simp at h1 ⊢; omega)
      rw [List.getD_eq_getElem?_getD, List.getElem?_eq_getElem h2, Option.getD_some] at this
      rw [this, List.map_map]
      have : (d.zipIdx.map (List.length ∘ fun e => [((e.2 : Int), e.1)])) = List.replicate d.length 1 := by
        rw [show (List.length ∘ fun (e : V × Nat) => [((e.2 : Int), e.1)]) = fun _ => 1 from rfl, List.map_const']
        simp
      rw [this, List.take_replicate, List.sum_replicate]
      simp at h1 ⊢
      omega
  · rw [hfl, List.map_map]
    apply List.ext_getElem <;> simp
  · rw [hfl, List.map_map]
    apply List.ext_getElem <;> simp

theorem diag_rows (d : List V) : (d.zipIdx.map fun e => [((e.2 : Int), e.1)]) =
    (List.range d.length).map fun i => match d[i]? with | some v => [((i : Int), v)] | none => [] := by
  apply List.ext_getElem
  · simp
  · intro i h1 h2
    simp at h1
    simp [h1]

theorem dims_ok {n : Nat} (h : (n : Int) ≤ i64Max) :
    (List.range (n + 1)).mapM dimToI64? = some ((List.range (n + 1)).map fun (i : Nat) => (i : Int)) ∧
    (List.range n).mapM dimToI64? = some ((List.range n).map fun (i : Nat) => (i : Int)) := by
  constructor <;>
  · apply mapM_option_map
    intro i hi
    have := List.mem_range.1 hi
    exact if_pos (by omega)

/-- C42: an empty CSR matrix is well-formed and everywhere zero. -/
theorem zeros_csr_correct [Zero V] [Add V] (nrows ncols : Nat) :
    (zerosCsr nrows ncols : Csr V).WF ∧ (zerosCsr nrows ncols : Csr V).nrows = nrows ∧
      (zerosCsr nrows ncols : Csr V).ncols = ncols ∧ ∀ i j, (zerosCsr nrows ncols : Csr V).val i j = 0 := by
  have e : (zerosCsr nrows ncols : Csr V).comp = Comp.ofRows ncols (List.replicate nrows []) := ofRows_empty nrows ncols
  refine ⟨?_, rfl, rfl, fun i j => ?_⟩
  · unfold Csr.WF
    rw [e]
    exact Comp.wf_ofRows (fun r hr => by obtain rfl := List.eq_of_mem_replicate hr; exact ⟨by simp, by simp, by simp⟩)
  · unfold Csr.val Comp.val Comp.row Comp.entries
    simp [zerosCsr, Csr.comp]
theorem zeros_csc_correct [Zero V] [Add V] (nrows ncols : Nat) :
    (zerosCsc nrows ncols : Csc V).WF ∧ (zerosCsc nrows ncols : Csc V).nrows = nrows ∧
      (zerosCsc nrows ncols : Csc V).ncols = ncols ∧ ∀ i j, (zerosCsc nrows ncols : Csc V).val i j = 0 := by
  have e : (zerosCsc nrows ncols : Csc V).comp = Comp.ofRows nrows (List.replicate ncols []) := ofRows_empty ncols nrows
  refine ⟨?_, rfl, rfl, fun i j => ?_⟩
  · unfold Csc.WF
    rw [e]
    exact Comp.wf_ofRows (fun r hr => by obtain rfl := List.eq_of_mem_replicate hr; exact ⟨by simp, by simp, by simp⟩)
  · unfold Csc.val Comp.val Comp.row Comp.entries
    simp [zerosCsc, Csc.comp]
theorem zeros_coo_correct [Zero V] [Add V] (nrows ncols : Nat) :
    (zerosCoo nrows ncols : Coo V).WF ∧ (zerosCoo nrows ncols : Coo V).NoDup ∧ (zerosCoo nrows ncols : Coo V).nrows = nrows ∧
      (zerosCoo nrows ncols : Coo V).ncols = ncols ∧ ∀ i j, (zerosCoo nrows ncols : Coo V).val i j = 0 :=
  ⟨⟨rfl, rfl, by simp [zerosCoo], by simp [zerosCoo]⟩, by simp [Coo.NoDup, Coo.triples, zerosCoo], rfl, rfl,
    fun i j => by simp [Coo.val, Coo.triples, zerosCoo]⟩

/-- C42: a diagonal matrix stores exactly `diag[i]` at `(i, i)` and is well-formed.  The bound is
automatic in Rust (`diag` is a vector of 8-byte elements). -/
theorem diag_csr_correct {d : List V} (h : (d.length : Int) ≤ i64Max) :
    ∃ r, diagCsr d = some r ∧ r.WF ∧ r.nrows = d.length ∧ r.ncols = d.length ∧
      ∀ i j, r.stored i j = if i = j then d[i]? else none := by
  refine ⟨_, by unfold diagCsr; rw [(dims_ok h).1, (dims_ok h).2]; rfl, ?_, rfl, rfl, fun i j => ?_⟩
  · unfold Csr.WF
    show Comp.WF ⟨_, _, _, _, _⟩
    rw [ofRows_diag, diag_rows]
    apply Comp.wf_ofRows
    intro l hl
    obtain ⟨i, hi, rfl⟩ := List.mem_map.1 hl
    have hi := List.mem_range.1 hi
    rw [List.getElem?_eq_getElem hi]
    exact ⟨by simp, by simpa using hi, by intro e he; simp at he; subst he; simp only; omega⟩
  · unfold Csr.stored Comp.stored
    show Option.map _ (List.find? _ (Comp.row ⟨_, _, _, _, _⟩ i)) = _
    rw [ofRows_diag, diag_rows, Comp.row_ofRows']
    by_cases hi : i < d.length
    · rw [if_pos hi, List.getElem?_eq_getElem hi]
      by_cases hij : i = j
      · subst hij; simp
      · rw [if_neg hij, List.find?_eq_none.2]
        · rfl
        · intro x hx; simp at hx; subst hx; simp; omega
    · rw [if_neg hi, List.getElem?_eq_none (by omega)]
      simp

/-- C42: a diagonal matrix as dense values. -/
theorem diag_csr_val [AddMonoid V] {d : List V} (h : (d.length : Int) ≤ i64Max) :
    ∃ r, diagCsr d = some r ∧ r.WF ∧ ∀ i j, r.val i j = if i = j then d.getD i 0 else 0 := by
  obtain ⟨r, h1, h2, -, -, h5⟩ := diag_csr_correct h
  refine ⟨r, h1, h2, fun i j => ?_⟩
  unfold Csr.val
  rw [Comp.WF.val_eq_stored h2, show r.comp.stored i j = r.stored i j from rfl, h5]
  split
  · rw [List.getD_eq_getElem?_getD]
  · rfl

theorem eye_eq_diag [One V] (n : Nat) : (eyeCsr n : Option (Csr V)) = diagCsr (List.replicate n 1) := by
  simp [eyeCsr, diagCsr]

/-- C42: the identity matrix. -/
theorem eye_csr_correct [AddMonoid V] [One V] {n : Nat} (h : (n : Int) ≤ i64Max) :
    ∃ r, (eyeCsr n : Option (Csr V)) = some r ∧ r.WF ∧ r.nrows = n ∧ r.ncols = n ∧ r.data.length = n ∧
      ∀ i j, i < n → j < n → r.val i j = if i = j then 1 else 0 := by
  rw [eye_eq_diag]
  obtain ⟨r, h1, h2, h3, h4, h5⟩ := diag_csr_correct (d := List.replicate n (1 : V)) (by simpa using h)
  obtain ⟨r', h1', -, h3'⟩ := diag_csr_val (d := List.replicate n (1 : V)) (by simpa using h)
  rw [h1] at h1'
  obtain rfl := Option.some.inj h1'
  have hd : r.data = List.replicate n 1 := by
    have := (dims_ok (n := (List.replicate n (1 : V)).length) (by simpa using h))
    unfold diagCsr at h1
    rw [this.1, this.2] at h1
    exact (congrArg Csr.data (Option.some.inj h1)).symm
  refine ⟨r, h1, h2, by simpa using h3, by simpa using h4, by simp [hd], fun i j hi hj => ?_⟩
  rw [h3']
  split
  · simp [hi]
  · rfl

/-- C42: `eye(n, m, k)` returns the identity for a square main-diagonal request and refuses
every other one (it never returns a wrong matrix). -/
theorem py_eye_correct [AddMonoid V] [One V] (n : Nat) (m : Option Int) (k : Int) (h : (n : Int) ≤ i64Max) :
    ((m = none ∨ m = some (n : Int)) ∧ k = 0 →
      ∃ r : Csr V, pyEye n m k = .ok r ∧ r.WF ∧ r.nrows = n ∧ r.ncols = n ∧
        ∀ i j, i < n → j < n → r.val i j = if i = j then 1 else 0) ∧
    (¬((m = none ∨ m = some (n : Int)) ∧ k = 0) → (pyEye n m k : Except PyErr (Csr V)) = .error .notImplemented) := by
  constructor
  · rintro ⟨hm, rfl⟩
    obtain ⟨r, h1, h2, h3, h4, -, h6⟩ := eye_csr_correct (V := V) h
    refine ⟨r, ?_, h2, h3, h4, h6⟩
    unfold pyEye
    rw [if_neg (by rcases hm with rfl | rfl <;> simp), if_neg (by simp), if_neg (by omega), Int.toNat_natCast, h1]
  · intro hn
    unfold pyEye
    split
    · rfl
    · rename_i hc
      rw [if_pos]
      have : m = none ∨ m = some (n : Int) := by
        cases m with
        | none => exact .inl rfl
        | some x => right; simpa using hc
      simpa using fun hk => hn ⟨this, hk⟩

/-! ### Witnesses -/
example : ∃ r, diagCsr [(7 : Int), 0, 9] = some r ∧ r.WF ∧ ∀ i j, r.val i j = if i = j then [7, 0, 9].getD i 0 else 0 :=
  diag_csr_val (by decide)
example : diagCsr [(7 : Int), 0, 9] = some ⟨3, 3, [0, 1, 2, 3], [0, 1, 2], [7, 0, 9]⟩ := by decide
example : ∃ r : Csr Int, pyEye 2 (some 2) 0 = .ok r ∧ r.WF ∧ r.nrows = 2 ∧ r.ncols = 2 ∧
    ∀ i j, i < 2 → j < 2 → r.val i j = if i = j then 1 else 0 := (py_eye_correct 2 (some 2) 0 (by decide)).1 (by decide)
example : (pyEye 2 (some 3) 0 : Except PyErr (Csr Int)) = .error .notImplemented :=
  (py_eye_correct 2 (some 3) 0 (by decide)).2 (by decide)

end Lacuna
