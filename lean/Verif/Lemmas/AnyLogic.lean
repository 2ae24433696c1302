import Verif.Lemmas.AnyKernels
import Verif.Lemmas.PyBits
/-
`all` and `any` in any arithmetic.
-/
set_option linter.unusedSectionVars false

namespace Lacuna
variable {V : Type}

theorem filter_toList {l : List (Int × V)} (h : (l.map Prod.fst).Nodup) (k : Int) :
    (l.filter fun e => e.1 == k).map Prod.snd = (lk k l).toList := by
  induction l with
  | nil => rfl
  | cons e l ih =>
    have h' := List.nodup_cons.1 h
    by_cases hk : e.1 = k
    · have : (l.filter fun e => e.1 == k) = [] := by
        rw [List.filter_eq_nil_iff]
        intro x hx hxk
        rw [beq_iff_eq] at hxk
        exact h'.1 (List.mem_map.2 ⟨x, hx, by rw [hxk, hk]⟩)
      rw [List.filter_cons_of_pos (by simpa using hk), this]
      unfold lk
      rw [List.find?_cons_of_pos (by simpa using hk)]
      rfl
    · rw [List.filter_cons_of_neg (by simpa using hk), ih h'.2]
      unfold lk
      rw [List.find?_cons_of_neg (by simpa using hk)]

theorem cell_toList {a : Comp V} (h : a.NoRep) (i j : Nat) :
    ((a.row i).filter fun e => e.1 == (j : Int)).map Prod.snd = (a.stored i j).toList := filter_toList (h i) j

section
variable [Zero V] [BEq V]

/-- One call of a logical kernel. -/
def LogicOp.kernel (op : LogicOp) (k : Nat) (l : List V) : Bool :=
  match op with
  | .all => allKernel k l
  | .any => anyKernel k l

theorem opts_length (opts : List (Option V)) : (opts.flatMap Option.toList).length ≤ opts.length ∧
    ((opts.flatMap Option.toList).length < opts.length ↔ none ∈ opts) := by
  induction opts with
  | nil => simp
  | cons o opts ih =>
    cases o with
    | none =>
      rw [List.flatMap_cons, Option.toList_none, List.nil_append, List.length_cons]
      exact ⟨by omega, fun _ => List.mem_cons_self, fun _ => by omega⟩
    | some v =>
      rw [List.flatMap_cons, Option.toList_some, List.singleton_append, List.length_cons, List.length_cons,
        Nat.add_lt_add_iff_right, ih.2]
      exact ⟨by omega, by simp⟩

theorem opts_any (p : V → Bool) (opts : List (Option V)) : opts.any (fun o => o.any p) = (opts.flatMap Option.toList).any p := by
  induction opts with
  | nil => rfl
  | cons o opts ih => cases o <;> simp [ih]

theorem opts_all (p : V → Bool) {opts : List (Option V)} (h : none ∉ opts) :
    opts.all (fun o => o.any p) = (opts.flatMap Option.toList).all p := by
  induction opts with
  | nil => rfl
  | cons o opts ih =>
    cases o with
    | none => simp at h
    | some v =>
      have := ih (fun hn => h (List.mem_cons_of_mem _ hn))
      simp [this]

theorem kernel_over (op : LogicOp) {l : List V} {opts : List (Option V)} {k : Nat} (hp : l.Perm (opts.flatMap Option.toList))
    (hk : opts.length = k) : op.kernel k l = op.over opts := by
  have hl := hp.length_eq
  have ho := opts_length opts
  subst hk
  cases op with
  | all =>
    show allKernel _ _ = opts.all _
    unfold allKernel
    by_cases h0 : opts.length = 0
    · rw [if_pos h0, List.length_eq_zero_iff.1 h0]; rfl
    · rw [if_neg h0]
      by_cases h1 : l.length < opts.length
      · rw [if_pos h1]
        rw [hl] at h1
        symm
        rw [List.all_eq_false]
        exact ⟨none, ho.2.1 h1, by simp⟩
      · rw [if_neg h1, opts_all _ (fun hn => h1 (hl ▸ ho.2.2 hn)), ← hp.all_eq, List.not_any_eq_all_not]
        rfl
  | any =>
    show anyKernel _ _ = opts.any _
    unfold anyKernel
    by_cases h0 : opts.length = 0
    · rw [if_pos h0, List.length_eq_zero_iff.1 h0]; rfl
    · rw [if_neg h0, opts_any, ← hp.any_eq]; rfl

theorem kernel_sat (op : LogicOp) {l : List V} {n m : Nat} (hl : l.length < usizeMax) :
    op.kernel (satMul n m) l = op.kernel (n * m) l := by
  have hs : satMul n m = min (n * m) usizeMax := rfl
  have hu : 0 < usizeMax := by unfold usizeMax; omega
  have h0 : satMul n m = 0 ↔ n * m = 0 := by omega
  have h1 : l.length < satMul n m ↔ l.length < n * m := by omega
  cases op with
  | all =>
    show allKernel _ _ = allKernel _ _
    unfold allKernel
    simp only [h0, h1]
  | any =>
    show anyKernel _ _ = anyKernel _ _
    unfold anyKernel
    simp only [h0]

theorem lineLogic_eq (a : Comp V) :
    lineAlls a = (List.range a.n).map (fun i => LogicOp.all.kernel a.m (a.lineVals i)) ∧
    lineAnys a = (List.range a.n).map (fun i => LogicOp.any.kernel a.m (a.lineVals i)) := by
  constructor
  · unfold lineAlls
    by_cases hn : a.n = 0
    · rw [if_pos hn, hn]; rfl
    · rw [if_neg hn]
      by_cases hm : a.m = 0
      · rw [if_pos hm]
        refine List.ext_getElem (by simp) fun i h1 h2 => ?_
        rw [List.getElem_replicate, List.getElem_map]
        show true = allKernel _ _
        unfold allKernel
        rw [if_pos hm]
      · rw [if_neg hm]
        refine List.map_congr_left fun i _ => ?_
        show _ = allKernel _ _
        unfold allKernel
        rw [if_neg hm]
        rfl
  · unfold lineAnys
    by_cases hn : a.n = 0
    · rw [if_pos hn, hn]; rfl
    · rw [if_neg hn]
      by_cases hm : a.m = 0
      · rw [if_pos hm]
        refine List.ext_getElem (by simp) fun i h1 h2 => ?_
        rw [List.getElem_replicate, List.getElem_map]
        show false = anyKernel _ _
        unfold anyKernel
        rw [if_pos hm]
      · rw [if_neg hm]
        refine List.map_congr_left fun i _ => ?_
        show _ = anyKernel _ _
        unfold anyKernel
        rw [if_neg hm]
        rfl

/-- The results along the lines. -/
def LogicOp.lines (op : LogicOp) (a : Comp V) : List Bool :=
  match op with
  | .all => lineAlls a
  | .any => lineAnys a

theorem lines_over (op : LogicOp) {a : Comp V} {n : Nat} {cells : Nat → List (Option V)} (hn : a.n = n)
    (hm : ∀ i, (cells i).length = a.m) (h : ∀ i, i < a.n → (a.lineVals i).Perm ((cells i).flatMap Option.toList)) :
    LinesAre (fun l r => r = op.over l) n cells (op.lines a) := by
  subst hn
  refine linesAre_eq (F := fun i => op.kernel a.m (a.lineVals i)) ?_ fun i hi => kernel_over op (h i hi) (hm i)
  cases op
  · exact (lineLogic_eq a).1
  · exact (lineLogic_eq a).2

theorem rows_perm {a : Comp V} (h : a.WF) (i : Nat) :
    (a.lineVals i).Perm (((List.range a.m).map fun j => a.stored i j).flatMap Option.toList) := by
  refine (row_by_index h.wfu i).symm.trans (List.Perm.of_eq ?_)
  rw [List.flatMap_map]
  exact List.flatMap_congr fun j _ => cell_toList h.noRep i j

theorem cross_eq {a : Comp V} (h : a.WF) (j : Nat) :
    a.crossVals j = ((List.range a.n).map fun i => a.stored i j).flatMap Option.toList := by
  unfold Comp.crossVals
  rw [List.flatMap_map]
  exact List.flatMap_congr fun i _ => cell_toList h.noRep i j

theorem data_lines {a : Comp V} (h : a.WFU) : a.data = (List.range a.n).flatMap a.lineVals := by
  rw [h.data_eq]
  unfold Comp.rows
  rw [List.flatMap_def, List.map_flatten, List.map_map]
  rfl

theorem data_perm {a : Comp V} (h : a.WF) : a.data.Perm ((cellsOf a.n a.m a.stored).flatMap Option.toList) := by
  unfold cellsOf
  rw [List.flatMap_assoc, data_lines h.wfu]
  exact List.Perm.flatMap_left _ fun i _ => rows_perm h i

theorem cells_swap (n m : Nat) (f : Nat → Nat → Option V) :
    ((cellsOf n m f).flatMap Option.toList).Perm ((cellsOf m n fun j i => f i j).flatMap Option.toList) := by
  unfold cellsOf
  rw [List.flatMap_assoc, List.flatMap_assoc]
  simp only [List.flatMap_map]
  induction n with
  | zero =>
    simp
  | succ n ih =>
    rw [List.range_succ, List.flatMap_append]
    refine (ih.append_right _).trans ?_
    rw [List.flatMap_singleton]
    simp only [List.flatMap_append, List.flatMap_singleton]
    exact (List.flatMap_append_perm _ _ _)

end

section
variable [Zero V] [One V] [Add V] [Sub V] [Mul V] [Div V] [BEq V] [NatCast V] [HasLt V] [HasMinMax V] [HasSqrt V]

theorem csr_logic_any {env : PyEnv V} (he : env.Ok) {a : Csr V} (ha : a.WF) (hm : a.comp.Machine)
    (hl : 8 * ((a.ncols : Int) + 1) ≤ i64Max) (hd : 24 * (a.data.length : Int) ≤ i64Max) (op : LogicOp) :
    Gives (fun _ => op.Glob env (.csr a)) (fun r => r = op.over (cellsOf a.nrows a.ncols a.stored)) ∧
    Gives (fun N => op.Cols env N (.csr a))
      (LinesAre (fun l r => r = op.over l) a.ncols fun j => (List.range a.nrows).map fun i => a.stored i j) ∧
    Gives (fun _ => op.Rows env (.csr a))
      (LinesAre (fun l r => r = op.over l) a.nrows fun i => (List.range a.ncols).map fun j => a.stored i j) := by
  have hw := Comp.WF.wfu ha
  have hf : a.comp.Fits := Comp.WFU.fits_of_machine hw hm
  have ht : env.threads < 2 ^ 62 := by have := he.threads; omega
  have hlen : a.data.length < usizeMax := by unfold i64Max at hd; unfold usizeMax; omega
  have key := fun N (hN : a.data.length < N) =>
    col_reductions_csr_ptr hw (Comp.WF.noRep ha) hm hl (by omega) he.pair ht hN env.dbg
  have row := line_reductions_ptr hw.ptrOk hm env.dbg (Nat.lt_succ_self a.data.length)
  have hrow := lines_over op (a := a.comp) (n := a.nrows) (cells := fun i => (List.range a.ncols).map fun j => a.stored i j) rfl
    (fun i => by rw [List.length_map, List.length_range]; rfl) (fun i _ => rows_perm ha i)
  have hcol : ∀ t, TransposeCsrRun env.pairSort env.threads a t → LinesAre (fun l r => r = op.over l) a.ncols
      (fun j => (List.range a.nrows).map fun i => a.stored i j) (op.lines t.comp) := by
    intro t h
    have e := transposeRun_eq ha hf he.pair h
    refine lines_over op (a := t.comp) ?_ (fun i => ?_) fun j _ => ?_
    · rw [e]; simp [tcomp, Comp.ofRows]; rfl
    · rw [e, List.length_map, List.length_range]; rfl
    · rw [e]
      exact (Multiset.coe_eq_coe.1 (tcomp_lineVals hw hf (interleaving_events a.comp) j)).trans (List.Perm.of_eq (cross_eq ha j))
  have hglob : op.kernel (satMul a.nrows a.ncols) a.data = op.over (cellsOf a.nrows a.ncols a.stored) :=
    (kernel_sat op hlen).trans (kernel_over op (data_perm ha) (cellsOf_length _ _ _))
  obtain ⟨t₀, ht₀⟩ := transpose_csr_exists ha hf he.pair env.threads
  cases op with
  | all =>
    exact ⟨gives_eq 0 (fun _ _ _ => Iff.rfl) hglob,
      gives_of (a.data.length + 1) (fun N hN => (key N (by omega)).2.2.2.1) ⟨_, t₀, ht₀, rfl⟩ fun y ⟨t, h, e⟩ => e ▸ hcol t h,
      gives_eq 0 (fun _ _ => row.2.2.2.1) hrow⟩
  | any =>
    exact ⟨gives_eq 0 (fun _ _ _ => Iff.rfl) hglob,
      gives_of (a.data.length + 1) (fun N hN => (key N (by omega)).2.2.2.2) ⟨_, t₀, ht₀, rfl⟩ fun y ⟨t, h, e⟩ => e ▸ hcol t h,
      gives_eq 0 (fun _ _ => row.2.2.2.2) hrow⟩

theorem csc_logic_any {env : PyEnv V} {a : Csc V} (ha : a.WF) (hm : a.comp.Machine)
    (hl : 8 * ((a.nrows : Int) + 1) ≤ i64Max) (hd : 24 * (a.data.length : Int) ≤ i64Max) (op : LogicOp) :
    Gives (fun _ => op.Glob env (.csc a)) (fun r => r = op.over (cellsOf a.nrows a.ncols a.stored)) ∧
    Gives (fun N => op.Cols env N (.csc a))
      (LinesAre (fun l r => r = op.over l) a.ncols fun j => (List.range a.nrows).map fun i => a.stored i j) ∧
    Gives (fun _ => op.Rows env (.csc a))
      (LinesAre (fun l r => r = op.over l) a.nrows fun i => (List.range a.ncols).map fun j => a.stored i j) := by
  have hw : a.WFU := Comp.WF.wfu ha
  have hf : a.comp.Fits := Comp.WFU.fits_of_machine hw hm
  have hlen : a.data.length < usizeMax := by unfold i64Max at hd; unfold usizeMax; omega
  have key := row_logic_csc_ptr hw hm hl env.dbg
  have col := line_reductions_ptr (a := a.comp) (Comp.WFU.ptrOk hw) hm env.dbg (Nat.lt_succ_self a.data.length)
  have hcol := lines_over op (a := a.comp) (n := a.ncols) (cells := fun j => (List.range a.nrows).map fun i => a.stored i j) rfl
    (fun i => by rw [List.length_map, List.length_range]; rfl) (fun j _ => rows_perm (a := a.comp) ha j)
  have hrow : ∀ t, CscToCsrRun a t → LinesAre (fun l r => r = op.over l) a.nrows
      (fun i => (List.range a.ncols).map fun j => a.stored i j) (op.lines t.comp) := by
    intro t h
    obtain ⟨sched, hs, e⟩ := atomicFill_eq hw hf h
    refine lines_over op (a := t.comp) ?_ (fun i => ?_) fun j _ => ?_
    · rw [e]; simp [tcomp, Comp.ofRows]; rfl
    · rw [e, List.length_map, List.length_range]; rfl
    · rw [e]
      exact (Multiset.coe_eq_coe.1 (tcomp_lineVals (a := a.comp) hw hf hs j)).trans (List.Perm.of_eq (cross_eq (a := a.comp) ha j))
  have hglob : op.kernel (satMul a.nrows a.ncols) a.data = op.over (cellsOf a.nrows a.ncols a.stored) :=
    (kernel_sat op hlen).trans (kernel_over op ((data_perm (a := a.comp) ha).trans (cells_swap _ _ _)) (cellsOf_length _ _ _))
  obtain ⟨t₀, ht₀, -⟩ := csc_to_csr_sequential_wf ha hf
  cases op with
  | all =>
    exact ⟨gives_eq 0 (fun _ _ _ => Iff.rfl) hglob, gives_eq 0 (fun _ _ => col.2.2.2.1) hcol,
      gives_of 0 (fun _ _ => key.1) ⟨_, t₀, ht₀, rfl⟩ fun y ⟨t, h, e⟩ => e ▸ hrow t h⟩
  | any =>
    exact ⟨gives_eq 0 (fun _ _ _ => Iff.rfl) hglob, gives_eq 0 (fun _ _ => col.2.2.2.2) hcol,
      gives_of 0 (fun _ _ => key.2) ⟨_, t₀, ht₀, rfl⟩ fun y ⟨t, h, e⟩ => e ▸ hrow t h⟩

theorem coo_logic_any {env : PyEnv V} (he : env.Ok) {a : Coo V} (ha : a.WF)
    (hi : a.I64) (hn : 8 * ((a.nrows : Int) + 1) ≤ i64Max) (hl : 8 * ((a.ncols : Int) + 1) ≤ i64Max)
    (hd : 24 * (a.data.length : Int) ≤ i64Max) (op : LogicOp) :
    ∃ f : Nat → Nat → Option V, (∀ i j : Nat, f i j = total (env.tripleSort a.triples) ((i : Int), (j : Int))) ∧
    Gives (fun _ => op.Glob env (.coo a)) (fun r => r = op.over (cellsOf a.nrows a.ncols f)) ∧
    Gives (fun N => op.Cols env N (.coo a))
      (LinesAre (fun l r => r = op.over l) a.ncols fun j => (List.range a.nrows).map fun i => f i j) ∧
    Gives (fun _ => op.Rows env (.coo a))
      (LinesAre (fun l r => r = op.over l) a.nrows fun i => (List.range a.ncols).map fun j => f i j) := by
  have hn' : (a.nrows : Int) ≤ i64Max := by omega
  have hd' : (a.data.length : Int) ≤ i64Max := by omega
  obtain ⟨h1, h2, h3, h4⟩ := coo_to_csr_exact he.triple ha hi hn' hd'
  have hle := cooToCsr_data_length_le he.triple ha hn' hd'
  have hm : (cooToCsr env.tripleSort a).comp.Machine := by
    refine Comp.WFU.machine (Comp.WF.wfu h3) ?_ ?_
    · show 8 * (((cooToCsr env.tripleSort a).nrows : Int) + 1) ≤ _
      rw [h1]; exact hn
    · show 8 * ((cooToCsr env.tripleSort a).data.length : Int) ≤ _
      omega
  have key := csr_logic_any he h3 hm (by rw [h2]; exact hl) (by omega) op
  rw [h1, h2] at key
  refine ⟨(cooToCsr env.tripleSort a).stored, h4, ?_⟩
  cases op with
  | all => exact key
  | any => exact key

end
end Lacuna
