import Verif.Spec.PyStat
import Verif.Lemmas.PyProg
import Verif.Lemmas.PyLinalg
import Verif.Props.PyReduceOps
import Verif.Props.PtrLines
import Verif.Props.PtrAccum
/-
The reductions on objects: outcomes that settle, the branches on the axes, the native calls.
-/
set_option linter.unusedSectionVars false

namespace Lacuna
variable {V W α β : Type}

/-- There is an outcome, and every outcome is a result with the property. -/
def Gives (run : Nat → Except Fault α → Prop) (R : α → Prop) : Prop :=
  (∃ o, Settles run o) ∧ ∀ o, Settles run o → ∃ y, o = .ok y ∧ R y

/-- The same for a Python call. -/
def GivesPy (p : PyRes α → Prop) (R : α → Prop) : Prop :=
  (∃ o, p o) ∧ ∀ o, p o → ∃ y, o = .ret y ∧ R y

theorem Gives.mono {run : Nat → Except Fault α → Prop} {R Q : α → Prop} (h : Gives run R) (hq : ∀ y, R y → Q y) :
    Gives run Q := ⟨h.1, fun o ho => by obtain ⟨y, e, hy⟩ := h.2 o ho; exact ⟨y, e, hq y hy⟩⟩

/-- From the outcomes for every large bound. -/
theorem gives_of {run : Nat → Except Fault α → Prop} {R Q : α → Prop} (N₀ : Nat)
    (h : ∀ N, N₀ ≤ N → ∀ o, run N o ↔ ∃ r, R r ∧ o = .ok r) (he : ∃ r, R r) (hq : ∀ r, R r → Q r) : Gives run Q := by
  obtain ⟨r, hr⟩ := he
  refine ⟨⟨.ok r, N₀, fun N hN => (h N hN _).2 ⟨r, hr, rfl⟩⟩, ?_⟩
  rintro o ⟨M, hM⟩
  obtain ⟨y, hy, e⟩ := (h (max M N₀) (by omega) o).1 (hM _ (by omega))
  exact ⟨y, e, hq y hy⟩

theorem gives_eq {run : Nat → Except Fault α → Prop} {y : α} {Q : α → Prop} (N₀ : Nat)
    (h : ∀ N, N₀ ≤ N → ∀ o, run N o ↔ o = .ok y) (hq : Q y) : Gives run Q :=
  gives_of (R := fun r => r = y) N₀ (fun N hN o => by rw [h N hN]; simp) ⟨y, rfl⟩ fun _ e => e ▸ hq

theorem gives_returns {run : Nat → Except Fault α → Prop} {y : α} {Q : α → Prop} (N₀ : Nat)
    (h : ∀ N, N₀ ≤ N → Returns (run N) fun z => z = y) (hq : Q y) : Gives run Q := by
  have key := settles_returns N₀ h
  exact ⟨⟨_, (key _).2 rfl⟩, fun o ho => ⟨y, (key o).1 ho, hq⟩⟩

/-- A safe kernel that has a result. -/
theorem gives_safe {run : α → Prop} {Q : α → Prop} (he : ∃ r, run r) (hq : ∀ r, run r → Q r) :
    Gives (fun _ => SafeRun run) Q :=
  gives_of (R := run) 0 (fun _ _ o => ⟨fun h => by
    rcases h with h | ⟨h, -⟩
    · exact h
    · exact absurd he h, fun h => .inl h⟩) he hq

theorem gives_map {run : Nat → Except Fault α → Prop} {R Q : α → Prop} {S : β → Prop} {f : α → β} (N₀ : Nat)
    (h : ∀ N, N₀ ≤ N → ∀ o, run N o ↔ ∃ r, R r ∧ o = .ok r) (he : ∃ r, R r) (hq : ∀ r, R r → Q r)
    (hf : ∀ y, Q y → S (f y)) : Gives (fun N out => ∃ o, run N o ∧ out = o.map f) S := by
  obtain ⟨r0, hr0⟩ := he
  refine gives_of (R := fun z => ∃ r, R r ∧ z = f r) N₀ (fun N hN o => ?_) ⟨f r0, r0, hr0, rfl⟩ ?_
  · constructor
    · rintro ⟨p, hp, rfl⟩
      obtain ⟨r, hr, rfl⟩ := (h N hN p).1 hp
      exact ⟨_, ⟨r, hr, rfl⟩, rfl⟩
    · rintro ⟨z, ⟨r, hr, rfl⟩, rfl⟩
      exact ⟨.ok r, (h N hN _).2 ⟨r, hr, rfl⟩, rfl⟩
  · rintro z ⟨r, hr, rfl⟩; exact hf r (hq r hr)

theorem safeRun_iff {run : α → Prop} (he : ∃ r, run r) (o : Except Fault α) : SafeRun run o ↔ ∃ r, run r ∧ o = .ok r :=
  ⟨fun h => by
    rcases h with h | ⟨h, -⟩
    · exact h
    · exact absurd he h, fun h => .inl h⟩

/-! ### Native calls -/

theorem Gives.call {a : Native V} {run : Nat → Native V → Except Fault α → Prop} {R : α → Prop}
    (h : Gives (fun N => run N a) R) : GivesPy (NativeCall (.ok a) run) R := by
  obtain ⟨⟨o, ho⟩, h2⟩ := h
  refine ⟨⟨_, o, ho, rfl⟩, ?_⟩
  rintro out ⟨o, ho, rfl⟩
  obtain ⟨y, rfl, hy⟩ := h2 o ho
  exact ⟨y, rfl, hy⟩

theorem GivesPy.bind {p : PyRes α → Prop} {R : α → Prop} {S : β → Prop} {k : α → PyRes β} (h : GivesPy p R)
    (hk : ∀ y, R y → ∃ z, k y = .ret z ∧ S z) : GivesPy (fun o => ∃ q, p q ∧ o = q.bind k) S := by
  obtain ⟨⟨o, ho⟩, h2⟩ := h
  refine ⟨⟨_, o, ho, rfl⟩, ?_⟩
  rintro out ⟨q, hq, rfl⟩
  obtain ⟨y, rfl, hy⟩ := h2 q hq
  obtain ⟨z, e, hz⟩ := hk y hy
  exact ⟨z, e, hz⟩

/-! ### The branches on the axes -/

theorem reduce2dObj_mono {n m : Nat} {glob glob' : PyRes W → Prop} {cols cols' rows rows' : PyRes (List W) → Prop}
    (hg : ∀ o, glob o → glob' o) (hc : ∀ o, cols o → cols' o) (hr : ∀ o, rows o → rows' o) {axis : AxisArg} {keep : Bool}
    {out : PyRes (NdArr W)} (h : Reduce2dObj n m glob cols rows axis keep out) :
    Reduce2dObj n m glob' cols' rows' axis keep out := by
  unfold Reduce2dObj at h ⊢
  cases hn : normalizeAxes2d axis with
  | error e => rw [hn] at h; exact h
  | ok norm =>
    rw [hn] at h
    simp only [] at h ⊢
    split
    · rename_i c; rw [if_pos c] at h; exact h.imp fun o ho => ⟨hg o ho.1, ho.2⟩
    rename_i c; rw [if_neg c] at h
    split
    · rename_i c; rw [if_pos c] at h; exact h
    rename_i c; rw [if_neg c] at h
    split
    · rename_i c; rw [if_pos c] at h; exact h.imp fun o ho => ⟨hc o ho.1, ho.2⟩
    rename_i c; rw [if_neg c] at h
    split
    · rename_i c; rw [if_pos c] at h; exact h.imp fun o ho => ⟨hr o ho.1, ho.2⟩
    rename_i c; rw [if_neg c] at h
    exact h

/-- Results of the native calls that are known. -/
theorem reduce2dObj_det {n m : Nat} {g : W} {cs rs : List W} {axis : AxisArg} {keep : Bool} {out : PyRes (NdArr W)} :
    Reduce2dObj n m (· = .ret g) (· = .ret cs) (· = .ret rs) axis keep out ↔
      out = .ofExcept (reduce2d n m (.ok g) (.ok cs) (.ok rs) axis keep) := by
  unfold Reduce2dObj reduce2d
  cases hn : normalizeAxes2d axis with
  | error e => exact Iff.rfl
  | ok norm =>
    simp only [Except.bind]
    split
    · simp [PyRes.bind]
    split
    · exact Iff.rfl
    split
    · simp [PyRes.bind]
    split
    · simp [PyRes.bind]
    · exact Iff.rfl

theorem reduce2dObj_split {n m : Nat} {glob : PyRes W → Prop} {cols rows : PyRes (List W) → Prop}
    {G : W → Prop} {C R : List W → Prop} (hg : GivesPy glob G) (hc : GivesPy cols C) (hr : GivesPy rows R)
    {axis : AxisArg} {keep : Bool} {out : PyRes (NdArr W)} (h : Reduce2dObj n m glob cols rows axis keep out) :
    ∃ g cs rs, G g ∧ C cs ∧ R rs ∧ Reduce2dObj n m (· = .ret g) (· = .ret cs) (· = .ret rs) axis keep out := by
  obtain ⟨⟨og, hog⟩, hg2⟩ := hg
  obtain ⟨⟨oc, hoc⟩, hc2⟩ := hc
  obtain ⟨⟨or, hor⟩, hr2⟩ := hr
  obtain ⟨g, -, hG⟩ := hg2 og hog
  obtain ⟨cs, -, hC⟩ := hc2 oc hoc
  obtain ⟨rs, -, hR⟩ := hr2 or hor
  unfold Reduce2dObj at h ⊢
  cases hn : normalizeAxes2d axis with
  | error e => rw [hn] at h; exact ⟨g, cs, rs, hG, hC, hR, h⟩
  | ok norm =>
    rw [hn] at h
    simp only [] at h ⊢
    split at h
    · rename_i c
      obtain ⟨o, ho, e⟩ := h
      obtain ⟨y, rfl, hy⟩ := hg2 o ho
      exact ⟨y, cs, rs, hy, hC, hR, by rw [if_pos c]; exact ⟨_, rfl, e⟩⟩
    rename_i c1
    split at h
    · rename_i c; exact ⟨g, cs, rs, hG, hC, hR, by rw [if_neg c1, if_pos c]; exact h⟩
    rename_i c2
    split at h
    · rename_i c
      obtain ⟨o, ho, e⟩ := h
      obtain ⟨y, rfl, hy⟩ := hc2 o ho
      exact ⟨g, y, rs, hG, hy, hR, by rw [if_neg c1, if_neg c2, if_pos c]; exact ⟨_, rfl, e⟩⟩
    rename_i c3
    split at h
    · rename_i c
      obtain ⟨o, ho, e⟩ := h
      obtain ⟨y, rfl, hy⟩ := hr2 o ho
      exact ⟨g, cs, y, hG, hC, hy, by rw [if_neg c1, if_neg c2, if_neg c3, if_pos c]; exact ⟨_, rfl, e⟩⟩
    rename_i c4
    exact ⟨g, cs, rs, hG, hC, hR, by rw [if_neg c1, if_neg c2, if_neg c3, if_neg c4]; exact h⟩

/-- The branches are right if the native calls are. -/
theorem reduce2dObj_correct {n m : Nat} {P : List V → W → Prop} {f : Nat → Nat → V}
    {glob : PyRes W → Prop} {cols rows : PyRes (List W) → Prop}
    (hg : GivesPy glob fun g => P (cellsOf n m f) g)
    (hc : GivesPy cols fun cs => cs.length = m ∧ ∀ j r, cs[j]? = some r → P ((List.range n).map fun i => f i j) r)
    (hr : GivesPy rows fun rs => rs.length = n ∧ ∀ i r, rs[i]? = some r → P ((List.range m).map fun j => f i j) r)
    (axis : AxisArg) (keep : Bool) (hv : axis.Valid 2) (hne : axis ≠ .many []) :
    GivesPy (Reduce2dObj n m glob cols rows axis keep) (IsReduction [n, m] (axis.covers 2) keep P (matFun f)) := by
  constructor
  · obtain ⟨⟨og, hog⟩, hg2⟩ := hg
    obtain ⟨⟨oc, hoc⟩, hc2⟩ := hc
    obtain ⟨⟨or, hor⟩, hr2⟩ := hr
    obtain ⟨g, rfl, -⟩ := hg2 og hog
    obtain ⟨cs, rfl, -⟩ := hc2 oc hoc
    obtain ⟨rs, rfl, -⟩ := hr2 or hor
    exact ⟨_, reduce2dObj_mono (by rintro o rfl; exact hog) (by rintro o rfl; exact hoc) (by rintro o rfl; exact hor)
      (reduce2dObj_det.2 rfl)⟩
  · intro out h
    obtain ⟨g, cs, rs, h1, h2, h3, h4⟩ := reduce2dObj_split hg hc hr h
    obtain ⟨arr, e, harr⟩ := reduce2d_correct (P := P) (f := f) ⟨h1, h2, h3⟩ axis keep hv hne
    rw [reduce2dObj_det.1 h4, e]
    exact ⟨arr, rfl, harr⟩

/-- Axis arguments that raise whatever the kernels do. -/
theorem reduce2dObj_rejects {n m : Nat} {glob : PyRes W → Prop} {cols rows : PyRes (List W) → Prop} (axis : AxisArg)
    (keep : Bool) (out : PyRes (NdArr W)) :
    (¬ axis.Valid 2 → (Reduce2dObj n m glob cols rows axis keep out ↔ out = .raises .valueError)) ∧
    (Reduce2dObj n m glob cols rows (.many []) keep out ↔ out = .raises .notImplemented) := by
  refine ⟨fun h => ?_, Iff.rfl⟩
  unfold Reduce2dObj
  rw [normalizeAxes2d_eq, normalizeAxesNd_invalid 2 axis h]

theorem isReduction_congr {shape : List Nat} {S : Nat → Bool} {keep : Bool} {P : List V → W → Prop} {f g : List Int → V}
    {out : NdArr W} (h : IsReduction shape S keep P f out) (hfg : ∀ x, InBounds shape x → f x = g x) :
    IsReduction shape S keep P g out := by
  refine ⟨h.shape_eq, h.size, fun y hy => ?_⟩
  obtain ⟨r, h1, h2⟩ := h.cell y hy
  refine ⟨r, h1, ?_⟩
  have : fibre shape S keep f y = fibre shape S keep g y := by
    unfold fibre
    exact List.map_congr_left fun x hx => hfg x (mem_indicesOf.1 (List.mem_filter.1 hx).1)
  rwa [this] at h2

/-! ### The kernels in exact arithmetic -/

/-- A list of results, one per line. -/
def LinesAre (P : List V → W → Prop) (n : Nat) (cells : Nat → List V) (y : List W) : Prop :=
  y.length = n ∧ ∀ i r, y[i]? = some r → P (cells i) r

theorem linesAre_eq {P : List V → W → Prop} {n : Nat} {cells : Nat → List V} {y : List W} {F : Nat → W}
    (h : y = (List.range n).map F) (hP : ∀ i, i < n → P (cells i) (F i)) : LinesAre P n cells y := lines_eq h hP

section
variable [Zero V] [Add V] [Sub V] [Mul V] [Div V] [BEq V] [NatCast V] [HasLt V]

theorem varPtr_iff (n : Nat) (data : List V) (c : V) (hlen : data.length ≤ usizeMax) {F : Nat} (hF : data.length < F)
    (out : Except Fault V) : VarPtrRun F n data c out ↔ ∃ r, VarRun n data c r ∧ out = .ok r := by
  unfold VarPtrRun VarRun
  split
  · simp
  constructor
  · rintro ⟨o, ho, rfl⟩
    obtain ⟨s, hs, rfl⟩ := (sums_ptr data hlen hF o).1 ho
    exact ⟨_, ⟨s, hs, rfl⟩, rfl⟩
  · rintro ⟨r, ⟨s, hs, rfl⟩, rfl⟩
    exact ⟨.ok s, (sums_ptr data hlen hF _).2 ⟨s, hs, rfl⟩, rfl⟩

end

/-- What the kernel computes: `mean` starts from the sums. -/
def RedOp.Raw [Field V] [LinearOrder V] (op : RedOp V) : List V → V → Prop :=
  match op with
  | .mean => fun l r => r = l.sum
  | op => op.Is

section
variable [Field V] [LinearOrder V] [IsStrictOrderedRing V] [BEq V] [LawfulBEq V] [HasLt V] [HasMinMax V] [HasSqrt V]
variable (hlt : ∀ x y : V, flt x y = true ↔ x < y)
include hlt

theorem std_lines (hsq : ∀ x : V, 0 ≤ x → 0 ≤ (fsqrt x : V) ∧ (fsqrt x : V) * fsqrt x = x)
    {n : Nat} {cells : Nat → List V} {c : V} {y : List V}
    (h : LinesAre (fun l r => r = specVar c l) n cells y) :
    LinesAre (fun l r => 0 ≤ r ∧ r * r = specVar c l) n cells (y.map stdFromVar) := by
  refine ⟨by rw [List.length_map]; exact h.1, fun i r hr => ?_⟩
  rw [List.getElem?_map, Option.map_eq_some_iff] at hr
  obtain ⟨v, hv, rfl⟩ := hr
  rw [h.2 i v hv]
  exact std_correct hsq c _

theorem glob_gives {a : Native V} {op : RedOp V}
    (hsq : (∃ c, op = .std c) → ∀ x : V, 0 ≤ x → 0 ≤ (fsqrt x : V) ∧ (fsqrt x : V) * fsqrt x = x)
    (hop : op ≠ .min ∧ op ≠ .max) {cells : List V}
    (hlen : a.data.length ≤ usizeMax)
    (h1 : ∀ r, SumRun a.data r → r = cells.sum)
    (h2 : ¬ op.Linear → ∀ r, ProdRun (satMul a.rows a.cols) a.data r → r = cells.prod)
    (h3 : ¬ op.Linear → op.Size [a.rows, a.cols] → ∀ c, (op = .var c ∨ op = .std c) →
      ∀ r, VarRun (satMul a.rows a.cols) a.data c r → r = specVar c cells)
    (hsz : op.Size [a.rows, a.cols]) : Gives (fun N => op.Glob N a) (op.Raw cells) := by
  have hs : Gives (fun N => SumPtrRun N a.data) fun r => r = cells.sum :=
    gives_of (a.data.length + 1) (fun N hN o => sum_ptr a.data hlen (by omega) o) (sum_runs _) h1
  cases op with
  | sum => exact hs
  | mean => exact hs
  | prod =>
    exact gives_of (a.data.length + 1) (fun N hN o => prod_ptr _ a.data hlen (by omega) o) (prod_runs _ _) (h2 id)
  | var c =>
    exact gives_of (a.data.length + 1) (fun N hN o => varPtr_iff _ a.data c hlen (by omega) o) (var_runs _ _ _)
      (h3 id hsz c (.inl rfl))
  | std c =>
    refine gives_map (a.data.length + 1) (fun N hN o => varPtr_iff _ a.data c hlen (by omega) o) (var_runs _ _ _)
      (h3 id hsz c (.inr rfl)) fun y hy => ?_
    rw [hy]; exact std_correct (hsq ⟨c, rfl⟩) c _
  | min => exact absurd rfl hop.1
  | max => exact absurd rfl hop.2

/-- The kernels for CSR. -/
theorem csr_gives {env : PyEnv V} (he : env.Ok) {a : Csr V} (ha : a.WF) (hm : a.comp.Machine)
    (hl : 8 * ((a.ncols : Int) + 1) ≤ i64Max) (hd : 24 * (a.data.length : Int) ≤ i64Max) {op : RedOp V}
    (hsq : (∃ c, op = .std c) → ∀ x : V, 0 ≤ x → 0 ≤ (fsqrt x : V) ∧ (fsqrt x : V) * fsqrt x = x)
    (hop : op ≠ .min ∧ op ≠ .max) (hsz : op.Size [a.nrows, a.ncols]) :
    Gives (fun N => op.Glob N (.csr a)) (op.Raw a.cells) ∧
    Gives (fun N => op.Cols env N (.csr a)) (LinesAre op.Raw a.ncols a.colCells) ∧
    Gives (fun N => op.Rows env N (.csr a)) (LinesAre op.Raw a.nrows a.rowCells) := by
  have hw := Comp.WF.wfu ha
  have hf : a.comp.Fits := Comp.WFU.fits_of_machine hw hm
  have hlen : a.data.length ≤ usizeMax := by unfold i64Max at hd; unfold usizeMax; omega
  have ht : env.threads < 2 ^ 62 := by have := he.threads; omega
  have key := fun N (hN : a.data.length < N) =>
    col_reductions_csr_ptr hw (Comp.WF.noRep ha) hm hl (by omega) he.pair ht hN env.dbg
  have row := fun N (hN : a.data.length < N) => line_reductions_ptr hw.ptrOk hm env.dbg hN
  have hcols : Gives (fun N => SumCols env N (.csr a)) (LinesAre (fun l r => r = l.sum) a.ncols a.colCells) :=
    gives_returns (a.ncols + 3 * a.data.length + 1025)
      (fun N hN => col_sums_ptr_correct hw hm (by omega) hd (by omega)) (linesAre_eq rfl fun _ _ => rfl)
  have hrows : Gives (fun N => SumRows env N (.csr a)) (LinesAre (fun l r => r = l.sum) a.nrows a.rowCells) :=
    gives_eq (a.data.length + 1) (fun N hN o => row_sums_csr_ptr_correct hw hm env.dbg (by omega) o)
      (linesAre_eq rfl fun _ _ => rfl)
  refine ⟨glob_gives hlt hsq hop hlen (fun r => sum_csr_correct hw) (fun _ r => prod_csr_correct ha hf.2)
    (fun _ h c hc r hr => (var_csr_correct hlt ha ?_ c hr).1) hsz, ?_, ?_⟩
  · rcases hc with rfl | rfl <;> exact (show a.nrows * (a.ncols * 1) ≤ usizeMax from h).trans' (by simp)
  · cases op with
    | sum => exact hcols
    | mean => exact hcols
    | prod =>
      obtain ⟨h1, h2⟩ := col_prods_csr_correct ha hf he.pair env.threads
      exact gives_of (a.data.length + 1) (fun N hN => (key N (by omega)).1) h1
        fun r hr => linesAre_eq (h2 r hr) fun _ _ => rfl
    | var c =>
      obtain ⟨h1, h2⟩ := col_vars_csr_correct hlt ha hf c he.pair env.threads
      exact gives_of (a.data.length + 1) (fun N hN => (key N (by omega)).2.2.1 c) h1
        fun r hr => linesAre_eq (h2 r hr) fun _ _ => rfl
    | std c =>
      obtain ⟨h1, h2⟩ := col_vars_csr_correct hlt ha hf c he.pair env.threads
      exact gives_map (Q := LinesAre (fun l r => r = specVar c l) a.ncols a.colCells) (a.data.length + 1) (fun N hN => (key N (by omega)).2.2.1 c) h1
        (fun r hr => linesAre_eq (h2 r hr) fun _ _ => rfl) fun y hy => std_lines hlt (hsq ⟨c, rfl⟩) hy
    | min => exact absurd rfl hop.1
    | max => exact absurd rfl hop.2
  · cases op with
    | sum => exact hrows
    | mean => exact hrows
    | prod =>
      exact gives_eq (a.data.length + 1) (fun N hN => (row N (by omega)).1)
        (linesAre_eq (row_prods_csr_correct ha) fun _ _ => rfl)
    | var c =>
      exact gives_eq (a.data.length + 1) (fun N hN => (row N (by omega)).2.2.1 c)
        (linesAre_eq (row_vars_csr_correct hlt ha c) fun _ _ => rfl)
    | std c =>
      exact gives_map (Q := LinesAre (fun l r => r = specVar c l) a.nrows a.rowCells) (R := fun r => r = lineVars a.comp c) (a.data.length + 1)
        (fun N hN o => by
          show LineVarsPtr env.dbg N c a.comp o ↔ _
          rw [(row N (by omega)).2.2.1 c]; simp) ⟨_, rfl⟩
        (fun r hr => linesAre_eq (hr.trans (row_vars_csr_correct hlt ha c)) fun _ _ => rfl) fun y hy => std_lines hlt (hsq ⟨c, rfl⟩) hy
    | min => exact absurd rfl hop.1
    | max => exact absurd rfl hop.2

/-- The kernels for CSC. -/
theorem csc_gives {env : PyEnv V} (he : env.Ok) {a : Csc V} (ha : a.WF) (hm : a.comp.Machine)
    (hl : 8 * ((a.nrows : Int) + 1) ≤ i64Max) (hd : 24 * (a.data.length : Int) ≤ i64Max) {op : RedOp V}
    (hsq : (∃ c, op = .std c) → ∀ x : V, 0 ≤ x → 0 ≤ (fsqrt x : V) ∧ (fsqrt x : V) * fsqrt x = x)
    (hop : op ≠ .min ∧ op ≠ .max) (hsz : op.Size [a.nrows, a.ncols]) :
    Gives (fun N => op.Glob N (.csc a)) (op.Raw a.cells) ∧
    Gives (fun N => op.Cols env N (.csc a)) (LinesAre op.Raw a.ncols a.colCells) ∧
    Gives (fun N => op.Rows env N (.csc a)) (LinesAre op.Raw a.nrows a.rowCells) := by
  have hw : a.WFU := Comp.WF.wfu ha
  have hf : a.comp.Fits := Comp.WFU.fits_of_machine hw hm
  have hlen : a.data.length ≤ usizeMax := by unfold i64Max at hd; unfold usizeMax; omega
  have ht : env.threads < 2 ^ 62 := by have := he.threads; omega
  have key := fun N (hN : a.data.length < N) =>
    row_reductions_csc_ptr hw hm hl (Comp.WF.noRep ha) (by omega) he.pair ht hN env.dbg
  have col := fun N (hN : a.data.length < N) => line_reductions_ptr (a := a.comp) (Comp.WFU.ptrOk hw) hm env.dbg hN
  have hcols : Gives (fun N => SumCols env N (.csc a)) (LinesAre (fun l r => r = l.sum) a.ncols a.colCells) :=
    gives_eq (a.data.length + 1) (fun N hN o => col_sums_csc_ptr (Comp.WFU.ptrOk hw) hm env.dbg (by omega) o)
      (linesAre_eq (col_sums_csc_correct hw) fun _ _ => rfl)
  have hrows : Gives (fun N => SumRows env N (.csc a)) (LinesAre (fun l r => r = l.sum) a.nrows a.rowCells) :=
    gives_returns (a.nrows + 3 * a.data.length + 1025)
      (fun N hN => row_sums_csc_ptr_correct hw hm (by omega) hd (by omega)) (linesAre_eq rfl fun _ _ => rfl)
  refine ⟨glob_gives hlt hsq hop hlen (fun r => sum_csc_correct hw) (fun _ r => prod_csc_correct ha hf.2)
    (fun _ h c hc r hr => (var_csc_correct hlt ha ?_ c hr).1) hsz, ?_, ?_⟩
  · rcases hc with rfl | rfl <;> exact (show a.nrows * (a.ncols * 1) ≤ usizeMax from h).trans' (by simp)
  · cases op with
    | sum => exact hcols
    | mean => exact hcols
    | prod =>
      exact gives_eq (a.data.length + 1) (fun N hN => (col N (by omega)).1)
        (linesAre_eq (col_prods_csc_correct ha) fun _ _ => rfl)
    | var c =>
      exact gives_eq (a.data.length + 1) (fun N hN => (col N (by omega)).2.2.1 c)
        (linesAre_eq (col_vars_csc_correct hlt ha c) fun _ _ => rfl)
    | std c =>
      exact gives_map (Q := LinesAre (fun l r => r = specVar c l) a.ncols a.colCells) (R := fun r => r = lineVars a.comp c) (a.data.length + 1)
        (fun N hN o => by
          show LineVarsPtr env.dbg N c a.comp o ↔ _
          rw [(col N (by omega)).2.2.1 c]; simp) ⟨_, rfl⟩
        (fun r hr => linesAre_eq (hr.trans (col_vars_csc_correct hlt ha c)) fun _ _ => rfl) fun y hy => std_lines hlt (hsq ⟨c, rfl⟩) hy
    | min => exact absurd rfl hop.1
    | max => exact absurd rfl hop.2
  · cases op with
    | sum => exact hrows
    | mean => exact hrows
    | prod =>
      obtain ⟨h1, h2⟩ := row_prods_csc_correct ha hf he.pair env.threads
      exact gives_of (a.data.length + 1) (fun N hN => (key N (by omega)).1) h1
        fun r hr => linesAre_eq (h2 r hr) fun _ _ => rfl
    | var c =>
      obtain ⟨h1, h2⟩ := row_vars_csc_correct hlt ha hf c he.pair env.threads
      exact gives_of (a.data.length + 1) (fun N hN => (key N (by omega)).2.2 c) h1
        fun r hr => linesAre_eq (h2 r hr) fun _ _ => rfl
    | std c =>
      obtain ⟨h1, h2⟩ := row_vars_csc_correct hlt ha hf c he.pair env.threads
      exact gives_map (Q := LinesAre (fun l r => r = specVar c l) a.nrows a.rowCells) (a.data.length + 1) (fun N hN => (key N (by omega)).2.2 c) h1
        (fun r hr => linesAre_eq (h2 r hr) fun _ _ => rfl) fun y hy => std_lines hlt (hsq ⟨c, rfl⟩) hy
    | min => exact absurd rfl hop.1
    | max => exact absurd rfl hop.2

/-- The kernels for COO; coordinates are stored once unless the reduction is linear. -/
theorem coo_gives {env : PyEnv V} {a : Coo V} (ha : a.WF) (hi : a.I64)
    (hn : 8 * ((a.nrows : Int) + 1) ≤ i64Max) (hl : 8 * ((a.ncols : Int) + 1) ≤ i64Max)
    (hd : 24 * (a.data.length : Int) ≤ i64Max) {op : RedOp V}
    (hsq : (∃ c, op = .std c) → ∀ x : V, 0 ≤ x → 0 ≤ (fsqrt x : V) ∧ (fsqrt x : V) * fsqrt x = x)
    (hdup : ¬ op.Linear → a.NoDup)
    (hop : op ≠ .min ∧ op ≠ .max) (hsz : op.Size [a.nrows, a.ncols]) :
    Gives (fun N => op.Glob N (.coo a)) (op.Raw a.cells) ∧
    Gives (fun N => op.Cols env N (.coo a)) (LinesAre op.Raw a.ncols a.colCells) ∧
    Gives (fun N => op.Rows env N (.coo a)) (LinesAre op.Raw a.nrows a.rowCells) := by
  have hlen : a.data.length ≤ usizeMax := by unfold i64Max at hd; unfold usizeMax; omega
  have hcols : Gives (fun N => SumCols env N (.coo a)) (LinesAre (fun l r => r = l.sum) a.ncols a.colCells) :=
    gives_returns (a.ncols + 3 * a.data.length + 1025)
      (fun N hN => col_sums_coo_ptr_correct ha hi (by omega) hd (by omega)) (linesAre_eq rfl fun _ _ => rfl)
  have hrows : Gives (fun N => SumRows env N (.coo a)) (LinesAre (fun l r => r = l.sum) a.nrows a.rowCells) :=
    gives_returns (a.nrows + 3 * a.data.length + 1025)
      (fun N hN => row_sums_coo_ptr_correct ha hi (by omega) hd (by omega)) (linesAre_eq rfl fun _ _ => rfl)
  refine ⟨glob_gives hlt hsq hop hlen (fun r => sum_coo_correct ha) (fun h r => prod_coo_correct ha (hdup h) (by omega))
    (fun hL h c hc r hr => (var_coo_correct hlt ha (hdup hL) ?_ c hr).1) hsz, ?_, ?_⟩
  · rcases hc with rfl | rfl <;> exact (show a.nrows * (a.ncols * 1) ≤ usizeMax from h).trans' (by simp)
  · cases op with
    | sum => exact hcols
    | mean => exact hcols
    | prod =>
      obtain ⟨h1, h2⟩ := col_prods_coo_correct env.threads ha hi (hdup id)
      exact gives_safe h1 fun r hr => linesAre_eq (h2 r hr) fun _ _ => rfl
    | var c =>
      obtain ⟨h1, h2⟩ := col_vars_coo_correct hlt env.threads ha hi (hdup id) c
      exact gives_safe h1 fun r hr => linesAre_eq (h2 r hr) fun _ _ => rfl
    | std c =>
      obtain ⟨h1, h2⟩ := col_vars_coo_correct hlt env.threads ha hi (hdup id) c
      exact gives_map (Q := LinesAre (fun l r => r = specVar c l) a.ncols a.colCells) 0 (fun _ _ => safeRun_iff h1) h1 (fun r hr => linesAre_eq (h2 r hr) fun _ _ => rfl)
        fun y hy => std_lines hlt (hsq ⟨c, rfl⟩) hy
    | min => exact absurd rfl hop.1
    | max => exact absurd rfl hop.2
  · cases op with
    | sum => exact hrows
    | mean => exact hrows
    | prod =>
      obtain ⟨h1, h2⟩ := row_prods_coo_correct env.threads ha hi (hdup id)
      exact gives_safe h1 fun r hr => linesAre_eq (h2 r hr) fun _ _ => rfl
    | var c =>
      obtain ⟨h1, h2⟩ := row_vars_coo_correct hlt env.threads ha hi (hdup id) c
      exact gives_safe h1 fun r hr => linesAre_eq (h2 r hr) fun _ _ => rfl
    | std c =>
      obtain ⟨h1, h2⟩ := row_vars_coo_correct hlt env.threads ha hi (hdup id) c
      exact gives_map (Q := LinesAre (fun l r => r = specVar c l) a.nrows a.rowCells) 0 (fun _ _ => safeRun_iff h1) h1 (fun r hr => linesAre_eq (h2 r hr) fun _ _ => rfl)
        fun y hy => std_lines hlt (hsq ⟨c, rfl⟩) hy
    | min => exact absurd rfl hop.1
    | max => exact absurd rfl hop.2

end

/-! ### min and max -/

section
variable [LinearOrder V] [AddZeroClass V] [One V] [Sub V] [Mul V] [Div V] [BEq V] [NatCast V] [HasLt V] [HasMinMax V]
  [HasSqrt V] (hI : IdealMinMax V)
include hI

theorem csr_minmax_gives {env : PyEnv V} (he : env.Ok) {a : Csr V} (ha : a.WF) (hm : a.comp.Machine)
    (hl : 8 * ((a.ncols : Int) + 1) ≤ i64Max) (hd : 24 * (a.data.length : Int) ≤ i64Max)
    (hn0 : 0 < a.nrows) (hm0 : 0 < a.ncols) :
    (Gives (fun N => RedOp.min.Glob N (.csr a)) (IsMinOf a.cells) ∧
      Gives (fun N => RedOp.min.Cols env N (.csr a)) (LinesAre IsMinOf a.ncols a.colCells) ∧
      Gives (fun N => RedOp.min.Rows env N (.csr a)) (LinesAre IsMinOf a.nrows a.rowCells)) ∧
    (Gives (fun N => RedOp.max.Glob N (.csr a)) (IsMaxOf a.cells) ∧
      Gives (fun N => RedOp.max.Cols env N (.csr a)) (LinesAre IsMaxOf a.ncols a.colCells) ∧
      Gives (fun N => RedOp.max.Rows env N (.csr a)) (LinesAre IsMaxOf a.nrows a.rowCells)) := by
  have hw := Comp.WF.wfu ha
  have hf : a.comp.Fits := Comp.WFU.fits_of_machine hw hm
  have hlen : a.data.length ≤ usizeMax := by unfold i64Max at hd; unfold usizeMax; omega
  have ht : env.threads < 2 ^ 62 := by have := he.threads; omega
  have key := fun N (hN : a.data.length < N) =>
    col_reductions_csr_ptr hw (Comp.WF.noRep ha) hm hl (by omega) he.pair ht hN env.dbg
  have row := fun N (hN : a.data.length < N) => line_reductions_ptr hw.ptrOk hm env.dbg hN
  have g := minmax_csr_correct hI ha hf.2 hn0 hm0
  have c := col_minmax_csr_correct hI ha hf hn0 he.pair env.threads
  have r := row_minmax_csr_correct hI ha hm0
  exact ⟨⟨gives_of (a.data.length + 1) (fun N hN => minmax_ptr _ _ _ _ hlen (by omega)) (ext_runs _ _ _ _) g.1,
      gives_of (a.data.length + 1) (fun N hN => (key N (by omega)).2.1 _) (c.1 _) c.2.1,
      gives_eq (a.data.length + 1) (fun N hN => (row N (by omega)).2.1 _) r.1⟩,
    gives_of (a.data.length + 1) (fun N hN => minmax_ptr _ _ _ _ hlen (by omega)) (ext_runs _ _ _ _) g.2,
    gives_of (a.data.length + 1) (fun N hN => (key N (by omega)).2.1 _) (c.1 _) c.2.2,
    gives_eq (a.data.length + 1) (fun N hN => (row N (by omega)).2.1 _) r.2⟩

theorem csc_minmax_gives {env : PyEnv V} (he : env.Ok) {a : Csc V} (ha : a.WF) (hm : a.comp.Machine)
    (hl : 8 * ((a.nrows : Int) + 1) ≤ i64Max) (hd : 24 * (a.data.length : Int) ≤ i64Max)
    (hn0 : 0 < a.nrows) (hm0 : 0 < a.ncols) :
    (Gives (fun N => RedOp.min.Glob N (.csc a)) (IsMinOf a.cells) ∧
      Gives (fun N => RedOp.min.Cols env N (.csc a)) (LinesAre IsMinOf a.ncols a.colCells) ∧
      Gives (fun N => RedOp.min.Rows env N (.csc a)) (LinesAre IsMinOf a.nrows a.rowCells)) ∧
    (Gives (fun N => RedOp.max.Glob N (.csc a)) (IsMaxOf a.cells) ∧
      Gives (fun N => RedOp.max.Cols env N (.csc a)) (LinesAre IsMaxOf a.ncols a.colCells) ∧
      Gives (fun N => RedOp.max.Rows env N (.csc a)) (LinesAre IsMaxOf a.nrows a.rowCells)) := by
  have hw : a.WFU := Comp.WF.wfu ha
  have hf : a.comp.Fits := Comp.WFU.fits_of_machine hw hm
  have hlen : a.data.length ≤ usizeMax := by unfold i64Max at hd; unfold usizeMax; omega
  have ht : env.threads < 2 ^ 62 := by have := he.threads; omega
  have key := fun N (hN : a.data.length < N) =>
    row_reductions_csc_ptr hw hm hl (Comp.WF.noRep ha) (by omega) he.pair ht hN env.dbg
  have col := fun N (hN : a.data.length < N) => line_reductions_ptr (a := a.comp) (Comp.WFU.ptrOk hw) hm env.dbg hN
  have g := minmax_csc_correct hI ha hf.2 hn0 hm0
  have c := col_minmax_csc_correct hI ha hn0
  have r := row_minmax_csc_correct hI ha hf hm0 he.pair env.threads
  exact ⟨⟨gives_of (a.data.length + 1) (fun N hN => minmax_ptr _ _ _ _ hlen (by omega)) (ext_runs _ _ _ _) g.1,
      gives_eq (a.data.length + 1) (fun N hN => (col N (by omega)).2.1 _) c.1,
      gives_of (a.data.length + 1) (fun N hN => (key N (by omega)).2.1 _) (r.1 _) r.2.1⟩,
    gives_of (a.data.length + 1) (fun N hN => minmax_ptr _ _ _ _ hlen (by omega)) (ext_runs _ _ _ _) g.2,
    gives_eq (a.data.length + 1) (fun N hN => (col N (by omega)).2.1 _) c.2,
    gives_of (a.data.length + 1) (fun N hN => (key N (by omega)).2.1 _) (r.1 _) r.2.2⟩

theorem coo_minmax_gives {env : PyEnv V} {a : Coo V} (ha : a.WF) (hi : a.I64) (hdup : a.NoDup)
    (hd : 24 * (a.data.length : Int) ≤ i64Max) (hn0 : 0 < a.nrows) (hm0 : 0 < a.ncols) :
    (Gives (fun N => RedOp.min.Glob N (.coo a)) (IsMinOf a.cells) ∧
      Gives (fun N => RedOp.min.Cols env N (.coo a)) (LinesAre IsMinOf a.ncols a.colCells) ∧
      Gives (fun N => RedOp.min.Rows env N (.coo a)) (LinesAre IsMinOf a.nrows a.rowCells)) ∧
    (Gives (fun N => RedOp.max.Glob N (.coo a)) (IsMaxOf a.cells) ∧
      Gives (fun N => RedOp.max.Cols env N (.coo a)) (LinesAre IsMaxOf a.ncols a.colCells) ∧
      Gives (fun N => RedOp.max.Rows env N (.coo a)) (LinesAre IsMaxOf a.nrows a.rowCells)) := by
  have hlen : a.data.length ≤ usizeMax := by unfold i64Max at hd; unfold usizeMax; omega
  have g := minmax_coo_correct hI ha hdup (by omega) hn0 hm0
  have c := col_minmax_coo_correct hI env.threads ha hi hdup hn0
  have r := row_minmax_coo_correct hI env.threads ha hi hdup hm0
  exact ⟨⟨gives_of (a.data.length + 1) (fun N hN => minmax_ptr _ _ _ _ hlen (by omega)) (ext_runs _ _ _ _) g.1,
      gives_safe c.1.1 c.1.2, gives_safe r.1.1 r.1.2⟩,
    gives_of (a.data.length + 1) (fun N hN => minmax_ptr _ _ _ _ hlen (by omega)) (ext_runs _ _ _ _) g.2,
    gives_safe c.2.1 c.2.2, gives_safe r.2.1 r.2.2⟩

end

/-! ### all and any -/

section
variable [BEq V]

theorem csr_logic_gives [AddCommMonoid V] (h0 : ((0 : V) == 0) = true) {env : PyEnv V} (he : env.Ok) {a : Csr V} (ha : a.WF)
    (hm : a.comp.Machine) (hl : 8 * ((a.ncols : Int) + 1) ≤ i64Max) (hd : 24 * (a.data.length : Int) ≤ i64Max)
    (op : LogicOp) :
    Gives (fun _ => op.Glob env (.csr a)) (op.Is a.cells) ∧
    Gives (fun N => op.Cols env N (.csr a)) (LinesAre op.Is a.ncols a.colCells) ∧
    Gives (fun _ => op.Rows env (.csr a)) (LinesAre op.Is a.nrows a.rowCells) := by
  have hw := Comp.WF.wfu ha
  have hf : a.comp.Fits := Comp.WFU.fits_of_machine hw hm
  have ht : env.threads < 2 ^ 62 := by have := he.threads; omega
  have key := fun N (hN : a.data.length < N) =>
    col_reductions_csr_ptr hw (Comp.WF.noRep ha) hm hl (by omega) he.pair ht hN env.dbg
  have row := line_reductions_ptr hw.ptrOk hm env.dbg (Nat.lt_succ_self a.data.length)
  have g := all_any_csr_correct h0 ha hf.2
  have c := col_all_any_csr_correct h0 ha hf he.pair env.threads
  have r := row_all_any_csr_correct h0 ha
  cases op with
  | all =>
    exact ⟨gives_eq 0 (fun _ _ _ => Iff.rfl) g.1,
      gives_of (a.data.length + 1) (fun N hN => (key N (by omega)).2.2.2.1) c.1.1 c.1.2,
      gives_eq 0 (fun _ _ => row.2.2.2.1) r.1⟩
  | any =>
    exact ⟨gives_eq 0 (fun _ _ _ => Iff.rfl) g.2,
      gives_of (a.data.length + 1) (fun N hN => (key N (by omega)).2.2.2.2) c.2.1 c.2.2,
      gives_eq 0 (fun _ _ => row.2.2.2.2) r.2⟩

theorem csc_logic_gives [AddCommMonoid V] (h0 : ((0 : V) == 0) = true) {env : PyEnv V} {a : Csc V} (ha : a.WF)
    (hm : a.comp.Machine) (hl : 8 * ((a.nrows : Int) + 1) ≤ i64Max) (op : LogicOp) :
    Gives (fun _ => op.Glob env (.csc a)) (op.Is a.cells) ∧
    Gives (fun N => op.Cols env N (.csc a)) (LinesAre op.Is a.ncols a.colCells) ∧
    Gives (fun _ => op.Rows env (.csc a)) (LinesAre op.Is a.nrows a.rowCells) := by
  have hw : a.WFU := Comp.WF.wfu ha
  have hf : a.comp.Fits := Comp.WFU.fits_of_machine hw hm
  have key := row_logic_csc_ptr hw hm hl env.dbg
  have col := line_reductions_ptr (a := a.comp) (Comp.WFU.ptrOk hw) hm env.dbg (Nat.lt_succ_self a.data.length)
  have g := all_any_csc_correct h0 ha hf.2
  have c := col_all_any_csc_correct h0 ha
  have r := row_all_any_csc_correct h0 ha hf
  cases op with
  | all =>
    exact ⟨gives_eq 0 (fun _ _ _ => Iff.rfl) g.1, gives_eq 0 (fun _ _ => col.2.2.2.1) c.1,
      gives_of 0 (fun _ _ => key.1) r.1.1 r.1.2⟩
  | any =>
    exact ⟨gives_eq 0 (fun _ _ _ => Iff.rfl) g.2, gives_eq 0 (fun _ _ => col.2.2.2.2) c.2,
      gives_of 0 (fun _ _ => key.2) r.2.1 r.2.2⟩

theorem coo_logic_gives [AddCommMonoid V] (h0 : ((0 : V) == 0) = true) {env : PyEnv V} (he : env.Ok) {a : Coo V} (ha : a.WF)
    (hi : a.I64) (hn : 8 * ((a.nrows : Int) + 1) ≤ i64Max) (hl : 8 * ((a.ncols : Int) + 1) ≤ i64Max)
    (hd : 24 * (a.data.length : Int) ≤ i64Max) (op : LogicOp) :
    Gives (fun _ => op.Glob env (.coo a)) (op.Is a.cells) ∧
    Gives (fun N => op.Cols env N (.coo a)) (LinesAre op.Is a.ncols a.colCells) ∧
    Gives (fun _ => op.Rows env (.coo a)) (LinesAre op.Is a.nrows a.rowCells) := by
  have hn' : (a.nrows : Int) ≤ i64Max := by omega
  have hd' : (a.data.length : Int) ≤ i64Max := by omega
  obtain ⟨h1, h2, h3, h4⟩ := coo_to_csr_correct he.triple ha hi hn' hd'
  have hle := cooToCsr_data_length_le he.triple ha hn' hd'
  have hv : (cooToCsr env.tripleSort a).val = a.val := funext fun i => funext fun j => h4 i j
  have hm : (cooToCsr env.tripleSort a).comp.Machine := by
    refine Comp.WFU.machine (Comp.WF.wfu h3) ?_ ?_
    · show 8 * (((cooToCsr env.tripleSort a).nrows : Int) + 1) ≤ _
      rw [h1]; exact hn
    · show 8 * ((cooToCsr env.tripleSort a).data.length : Int) ≤ _
      omega
  have key := csr_logic_gives h0 he h3 hm (by rw [h2]; exact hl) (by omega) op
  have e1 : (cooToCsr env.tripleSort a).cells = a.cells := by unfold Csr.cells Coo.cells; rw [h1, h2, hv]
  have e2 : (cooToCsr env.tripleSort a).colCells = a.colCells := by
    funext j; unfold Csr.colCells Coo.colCells; rw [h1, hv]
  have e3 : (cooToCsr env.tripleSort a).rowCells = a.rowCells := by
    funext i; unfold Csr.rowCells Coo.rowCells; rw [h2, hv]
  rw [e1, e2, e3, h1, h2] at key
  cases op with
  | all => exact key
  | any => exact key

end

end Lacuna
