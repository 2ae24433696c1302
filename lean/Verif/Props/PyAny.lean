import Verif.Lemmas.PyAnyObj
import Verif.Props.PyRead
/-
C82: the reductions of objects of the sparse classes and of programs over them, in whatever arithmetic
the machine has.
-/
set_option linter.unusedSectionVars false

namespace Lacuna
variable {V : Type}

section
variable [Zero V] [One V] [Add V] [Sub V] [Mul V] [Div V] [BEq V] [NatCast V] [HasLt V] [HasMinMax V] [HasSqrt V]

/-! ### matrices -/

/-- C82: `sum`, `mean`, `prod`, `var`, `std`, `min` and `max` of a valid `CSR`, `CSC` or `COO` object, over
any axes that exist, with and without `keepdims`, in any arithmetic: whatever the schedule, the call has
an outcome, and every outcome is a dense array of the right shape, each of whose cells is made of the
numbers stored along the reduced axes, every one used once.  (`mean` over everything must not divide by
zero.) -/
theorem py_reduce_any {env : PyEnv V} (he : env.Ok) {v : SpVal V} (hv : v.Valid) (hs : v.ty.SizeOk v.nnz) (h2 : v.ty.Is2d)
    {op : RedOp V} {axis : AxisArg} (keep : Bool) (ha : axis.Valid 2) (hne : axis ≠ .many [])
    (hz : op = .mean → (∀ d, d < 2 → axis.covers 2 d = true) → (((v.ty.shape.prod : Nat) : V) == 0) = false) :
    (∃ out, RedMethod env op axis keep v.obj out) ∧
    ∀ out, RedMethod env op axis keep v.obj out →
      ∃ r, out = .ret (.dense r) ∧ IsReduction v.ty.shape (axis.covers 2) keep op.OfCells v.held r :=
  redMethod_gives h2 (red2d_held he ⟨hv, hs⟩ h2 axis keep ha hne hz)

/-- C82: `all` and `any`. -/
theorem py_logic_any {env : PyEnv V} (he : env.Ok) {v : SpVal V} (hv : v.Valid) (hs : v.ty.SizeOk v.nnz) (h2 : v.ty.Is2d)
    (op : LogicOp) {axis : AxisArg} (keep : Bool) (ha : axis.Valid 2) (hne : axis ≠ .many []) :
    (∃ out, LogicMethod env op axis keep v.obj out) ∧
    ∀ out, LogicMethod env op axis keep v.obj out →
      ∃ r, out = .ret r ∧ IsReduction v.ty.shape (axis.covers 2) keep op.OfCells v.held r := by
  have h := logic2d_held he (v := v) ⟨hv, hs⟩ h2 op axis keep ha hne
  cases v with
  | mat f a => exact h
  | coo a => exact h
  | nd a => exact absurd h2 id

/-- C82: `prod(x)` is zero as soon as fewer numbers are stored than there are cells, even if a `NaN` or an
infinity is stored (NumPy returns `NaN` then). -/
theorem py_prod_sparse {env : PyEnv V} (he : env.Ok) {v : SpVal V} (hv : v.Valid) (hs : v.ty.SizeOk v.nnz) (h2 : v.ty.Is2d)
    (hlt : v.stores.length < v.ty.shape.prod) (out : PyRes (RedOut V V)) :
    RedMethod env .prod .none false v.obj out ↔ out = .ret (.dense ⟨[], [0]⟩) := by
  obtain ⟨⟨o, ho⟩, h⟩ := py_reduce_any he hv hs h2 (op := .prod) (axis := .none) false (fun a ha => by cases ha) (by simp)
    (fun h => by cases h)
  have key : ∀ out, RedMethod env .prod .none false v.obj out → out = .ret (.dense ⟨[], [0]⟩) := by
    intro out hout
    obtain ⟨r, rfl, hr⟩ := h out hout
    obtain ⟨shape, data⟩ := r
    have hsh : shape = [] := by
      have := hr.shape_eq
      rw [reducedShape_false] at this
      simpa [extents, AxisArg.covers] using this
    subst hsh
    have hsz : data.length = 1 := hr.size
    obtain ⟨x, rfl⟩ := List.length_eq_one_iff.1 hsz
    obtain ⟨r, h1, h2⟩ := hr.cell [] .nil
    have h1 : x = r := by simpa [rowMajor] using h1
    subst h1
    have hfib : fibre v.ty.shape (AxisArg.none.covers 2) false v.held [] = (indicesOf v.ty.shape).map v.held := by
      unfold fibre
      congr 1
      rw [List.filter_eq_self]
      intro y _
      rw [reducedIndex_false]
      simp [select, AxisArg.covers]
    rw [hfib] at h2
    have hp := values_by_key (indicesOf_nodup v.ty.shape) v.stores
    have hcard : ((indicesOf v.ty.shape).map v.held).flatten.length ≤ v.stores.length := by
      rw [show (indicesOf v.ty.shape).map v.held = (indicesOf v.ty.shape).map (valuesAt v.stores) from rfl, hp.length_eq,
        List.length_map]
      exact List.length_filter_le _ _
    have h2 : (if Multiset.card (((indicesOf v.ty.shape).map v.held).flatten : Multiset V) < ((indicesOf v.ty.shape).map v.held).length
      then x = 0 else _) := h2
    rw [Multiset.coe_card, List.length_map, indicesOf_length, if_pos (by omega)] at h2
    rw [h2]
  refine ⟨key out, ?_⟩
  rintro rfl
  rw [← key o ho]; exact ho

/-! ### N-D arrays -/

/-- C82: `sum(x)` and `mean(x)` of a valid `COOND`. -/
theorem py_nd_reduce_any {env : PyEnv V} {a : CooNd V} (hv : (SpVal.nd a).Valid) (hs : (SpVal.nd a).ty.SizeOk a.data.length)
    {op : RedOp V} (hop : op.Linear) (keep : Bool) (hz : op = .mean → (((a.shape.prod : Nat) : V) == 0) = false) :
    (∃ out, RedMethod env op .none keep (SpVal.nd a).obj out) ∧
    ∀ out, RedMethod env op .none keep (SpVal.nd a).obj out →
      ∃ r, out = .ret (.dense r) ∧ IsReduction a.shape (fun _ => true) keep op.OfCells (SpVal.nd a).held r := by
  have hg : (SpVal.nd a).Good := ⟨hv, hs⟩
  obtain ⟨hw, hi, hpos, hus⟩ := good_nd hg
  have h24 : 24 * (a.data.length : Int) ≤ i64Max := good_nnz hg
  have hlen : a.data.length ≤ usizeMax := by unfold i64Max at h24; unfold usizeMax; omega
  have hperm : (((indicesOf a.shape).map (SpVal.nd a).held).flatten).Perm a.data := by
    have hp := values_by_key (indicesOf_nodup a.shape) a.entries
    rw [filter_contains_all (fun e he => mem_indicesOf.2 (hw.entries_inBounds e he)), a.entries_snd] at hp
    exact hp
  have hk : ((indicesOf a.shape).map (SpVal.nd a).held).length = a.shape.prod := by rw [List.length_map, indicesOf_length]
  have main : ∀ (mean : Bool) (P : List (List V) → V → Prop),
      Gives (fun N => NdGlob N mean a) (P ((indicesOf a.shape).map (SpVal.nd a).held)) →
      (∃ out, RedNd env mean .none keep (PyNd.of a) out) ∧ ∀ out, RedNd env mean .none keep (PyNd.of a) out →
        ∃ r, out = .ret (.dense r) ∧ IsReduction a.shape (fun _ => true) keep P (SpVal.nd a).held r := by
    intro mean P h
    have hpost : ∀ s : V, ((PyRes.ofExcept (if keep then npReshape ⟨[], [s]⟩ ((PyNd.of a).shape.map fun _ => 1) else .ok ⟨[], [s]⟩)).bind
        fun r => .ret (.dense r) : PyRes (RedOut V V)) = .ret (.dense ⟨if keep then a.shape.map fun _ => 1 else [], [s]⟩) := by
      intro s
      cases keep with
      | false => rfl
      | true =>
        rw [if_pos rfl, if_pos rfl]
        unfold npReshape
        rw [show ((PyNd.of a).shape.map fun _ => 1) = a.shape.map fun _ => 1 from List.map_map, if_pos (by simp)]
        rfl
    have hiff : ∀ out, RedNd env mean .none keep (PyNd.of a) out ↔ ∃ o, Settles (fun N => NdGlob N mean a) o ∧
        out = (PyRes.ofKernel o).bind fun s => (PyRes.ofExcept (if keep then npReshape ⟨[], [s]⟩
          ((PyNd.of a).shape.map fun _ => 1) else .ok ⟨[], [s]⟩)).bind fun r => .ret (.dense r) := by
      intro out
      unfold RedNd
      show (match (PyNd.of a).parts with | .error e => _ | .ok a => _) ↔ _
      rw [hg.ndParts]
    refine ⟨?_, fun out hout => ?_⟩
    · obtain ⟨o, ho⟩ := h.1
      exact ⟨_, (hiff _).2 ⟨o, ho, rfl⟩⟩
    · obtain ⟨o, ho, rfl⟩ := (hiff _).1 hout
      obtain ⟨s, rfl, hs⟩ := h.2 o ho
      exact ⟨_, hpost s, isReduction_nd_all hs keep⟩
  have hsum : ∀ N, a.data.length + 1 ≤ N → ∀ o, SumPtrRun N a.data o ↔ ∃ r, SumRun a.data r ∧ o = .ok r :=
    fun N hN o => sum_ptr a.data hlen (by omega) o
  cases op with
  | sum =>
    exact main false _ (gives_of (a.data.length + 1) hsum (sum_runs _) fun r hr => computes_perm hk hperm (sum_terms hr))
  | mean =>
    refine main true _ ?_
    have e : (fun N => NdGlob (V := V) N true a) =
        fun N out => ∃ o, SumPtrRun N a.data o ∧ out = o.map fun s => s / ((a.shape.prod : Nat) : V) := by
      funext N out
      unfold NdGlob
      rw [if_pos rfl, if_neg hw.rank, productChecked_pos hpos hus]
      simp only []
      rw [hz rfl]
      rfl
    rw [e]
    exact gives_map (Q := AddTree (a.data : Multiset V)) (a.data.length + 1) hsum (sum_runs _) (fun r hr => sum_terms hr)
      fun s hs => computes_perm hk hperm ⟨s, hs, rfl⟩
  | _ => exact absurd hop id

end

/-- What a tree of choices ends in is one of its leaves, or the unit. -/
theorem joinTree_mem {join : V → V → V → Prop} (hj : ∀ a b c, join a b c → c = a ∨ c = b) {e : V} {s : Multiset V} {r : V}
    (h : JoinTree join e s r) : r ∈ s ∨ r = e := by
  induction h with
  | unit => exact .inr rfl
  | leaf x => exact .inl (Multiset.mem_singleton_self x)
  | node _ _ hc ih1 ih2 =>
    rcases hj _ _ _ hc with rfl | rfl
    · exact ih1.imp (fun h => Multiset.mem_add.2 (.inl h)) id
    · exact ih2.imp (fun h => Multiset.mem_add.2 (.inr h)) id

/-! ### programs -/

section
variable [Zero V] [One V] [Add V] [Sub V] [Mul V] [Div V] [Neg V] [BEq V] [NatCast V] [HasFinite V]
  [HasFloor V] [HasPowf V] [HasAbs V] [HasLt V] [HasNan V] [HasMinMax V] [HasSqrt V]

theorem prog_held {env : PyEnv V} (he : env.Ok) {e : Prog V} (hl : e.LitsOk) (hs : e.Small) (hd : e.Determined) {τ : Ty}
    (hc : e.check = .ok τ) : ∃ w : SpVal V, w.Valid ∧ w.ty.SizeOk w.nnz ∧ w.ty = τ ∧ (w.held = fun x => valuesAt e.stores x) ∧
      ∀ o, e.Eval env o ↔ o = .ret w.obj := by
  obtain ⟨h1, h2⟩ := Prog.step he hl hs
  have hf := Prog.small_fits hs
  unfold Prog.Fits at hf
  rw [hc] at h1 hf
  obtain ⟨w, e1, hv, ht, hn⟩ := h1
  rw [e1] at h2
  refine ⟨w, hv, by rw [ht]; exact Ty.SizeOk.mono hf hn, ht, ?_, h2⟩
  funext x
  unfold SpVal.held
  rw [(Prog.value_stores he hl hs hd e1).1]

/-- C82: a program whose value is a matrix, reduced in the end, in any arithmetic: every cell of the
result is made of the numbers the program stores along the reduced axes (C79). -/
theorem prog_reduce_any {env : PyEnv V} (he : env.Ok) {e : Prog V} (hl : e.LitsOk) (hs : e.Small) (hd : e.Determined) {τ : Ty}
    (hc : e.check = .ok τ) (h2 : τ.Is2d) {op : RedOp V} {axis : AxisArg} (keep : Bool) (ha : axis.Valid 2) (hne : axis ≠ .many [])
    (hz : op = .mean → (∀ d, d < 2 → axis.covers 2 d = true) → (((τ.shape.prod : Nat) : V) == 0) = false) :
    (∃ out, e.Reduce env op axis keep out) ∧
    ∀ out, e.Reduce env op axis keep out →
      ∃ r, out = .ret (.dense r) ∧ IsReduction τ.shape (axis.covers 2) keep op.OfCells (fun x => valuesAt e.stores x) r := by
  obtain ⟨w, hv, hs', rfl, hh, hev⟩ := prog_held he hl hs hd hc
  obtain ⟨⟨out, ho⟩, h⟩ := py_reduce_any he hv hs' h2 keep ha hne hz
  refine ⟨⟨out, _, (hev _).2 rfl, ho⟩, ?_⟩
  rintro out ⟨o, ho, hout⟩
  rw [(hev o).1 ho] at hout
  rw [← hh]
  exact h out hout

/-- C82: the same for `all` and `any`. -/
theorem prog_logic_any {env : PyEnv V} (he : env.Ok) {e : Prog V} (hl : e.LitsOk) (hs : e.Small) (hd : e.Determined) {τ : Ty}
    (hc : e.check = .ok τ) (h2 : τ.Is2d) (op : LogicOp) {axis : AxisArg} (keep : Bool) (ha : axis.Valid 2) (hne : axis ≠ .many []) :
    (∃ out, e.Logic env op axis keep out) ∧
    ∀ out, e.Logic env op axis keep out →
      ∃ r, out = .ret r ∧ IsReduction τ.shape (axis.covers 2) keep op.OfCells (fun x => valuesAt e.stores x) r := by
  obtain ⟨w, hv, hs', rfl, hh, hev⟩ := prog_held he hl hs hd hc
  obtain ⟨⟨out, ho⟩, h⟩ := py_logic_any he hv hs' h2 op keep ha hne
  refine ⟨⟨out, _, (hev _).2 rfl, ho⟩, ?_⟩
  rintro out ⟨o, ho, hout⟩
  rw [(hev o).1 ho] at hout
  rw [← hh]
  exact h out hout

/-- C82: the same for `sum` and `mean` of a program whose value is a `COOND`. -/
theorem prog_nd_reduce_any {env : PyEnv V} (he : env.Ok) {e : Prog V} (hl : e.LitsOk) (hs : e.Small) (hd : e.Determined)
    {s : List Nat} (hc : e.check = .ok (.nd s)) {op : RedOp V} (hop : op.Linear) (keep : Bool)
    (hz : op = .mean → (((s.prod : Nat) : V) == 0) = false) :
    (∃ out, e.Reduce env op .none keep out) ∧
    ∀ out, e.Reduce env op .none keep out →
      ∃ r, out = .ret (.dense r) ∧ IsReduction s (fun _ => true) keep op.OfCells (fun x => valuesAt e.stores x) r := by
  obtain ⟨w, hv, hs', ht, hh, hev⟩ := prog_held he hl hs hd hc
  cases w with
  | mat f a => cases ht
  | coo a => cases ht
  | nd a =>
    cases ht
    obtain ⟨⟨out, ho⟩, h⟩ := py_nd_reduce_any (env := env) hv hs' hop keep hz
    refine ⟨⟨out, _, (hev _).2 rfl, ho⟩, ?_⟩
    rintro out ⟨o, ho, hout⟩
    rw [(hev o).1 ho] at hout
    rw [← hh]
    exact h out hout

/-- C82: sums of programs up to rounding.  With an addition of relative error `eps`, every cell of
`sum(program, axis)` is the sum of what the program stores along the axis up to the error bound of
recursive summation, for every schedule. -/
theorem prog_sum_rounded (M : FpAdd V) {env : PyEnv V} (he : env.Ok) {e : Prog V} (hl : e.LitsOk) (hs : e.Small)
    (hd : e.Determined) {τ : Ty} (hc : e.check = .ok τ) (h2 : τ.Is2d) {axis : AxisArg} (keep : Bool) (ha : axis.Valid 2)
    (hne : axis ≠ .many []) {out : PyRes (RedOut V V)} (h : e.Reduce env .sum axis keep out) :
    ∃ r, out = .ret (.dense r) ∧ IsReduction τ.shape (axis.covers 2) keep
      (fun cells v => RoundedSum M (cells.flatten : Multiset V) v) (fun x => valuesAt e.stores x) r := by
  obtain ⟨r, e1, hr⟩ := (prog_reduce_any he hl hs hd hc h2 (op := .sum) keep ha hne (fun h => by cases h)).2 out h
  refine ⟨r, e1, hr.shape_eq, hr.size, fun y hy => ?_⟩
  obtain ⟨v, h1, h2⟩ := hr.cell y hy
  exact ⟨v, h1, AddTree.rounded M h2⟩

/-- C82: where `f64::min` and the vector minimum return one of their two operands, `NaN` or not, every cell
of `min(program, axis)` is one of the numbers stored along the axis, or zero, or the infinity the loops
start with. -/
theorem prog_min_mem (hmin : ∀ a b : V, (fmin a b = a ∨ fmin a b = b) ∧ (vmin a b = a ∨ vmin a b = b)) {env : PyEnv V}
    (he : env.Ok) {e : Prog V} (hl : e.LitsOk) (hs : e.Small) (hd : e.Determined) {τ : Ty} (hc : e.check = .ok τ) (h2 : τ.Is2d)
    {axis : AxisArg} (keep : Bool) (ha : axis.Valid 2) (hne : axis ≠ .many []) {out : PyRes (RedOut V V)}
    (h : e.Reduce env .min axis keep out) :
    ∃ r, out = .ret (.dense r) ∧ IsReduction τ.shape (axis.covers 2) keep
      (fun cells v => (∃ l ∈ cells, v ∈ l) ∨ v = 0 ∨ v = posInf) (fun x => valuesAt e.stores x) r := by
  obtain ⟨r, e1, hr⟩ := (prog_reduce_any he hl hs hd hc h2 (op := .min) keep ha hne (fun h => by cases h)).2 out h
  refine ⟨r, e1, hr.shape_eq, hr.size, fun y hy => ?_⟩
  obtain ⟨v, h1, h2⟩ := hr.cell y hy
  refine ⟨v, h1, ?_⟩
  generalize fibre τ.shape (axis.covers 2) keep (fun x => valuesAt e.stores x) y = cells at h2
  have h2 : if cells.length = 0 then v = 0 else JoinTree MinJoin posInf
    (if Multiset.card (cells.flatten : Multiset V) < cells.length then 0 ::ₘ (cells.flatten : Multiset V) else cells.flatten) v := h2
  split at h2
  · exact .inr (.inl h2)
  · have hj : ∀ a b c : V, MinJoin a b c → c = a ∨ c = b := by
      rintro a b c (rfl | rfl | rfl)
      · exact (hmin a b).1
      · exact (hmin a b).2
      · split
        · exact .inr rfl
        · exact .inl rfl
    rcases joinTree_mem hj h2 with h | h
    · split at h
      · rcases Multiset.mem_cons.1 h with h | h
        · exact .inr (.inl h)
        · exact .inl (List.mem_flatten.1 (Multiset.mem_coe.1 h))
      · exact .inl (List.mem_flatten.1 (Multiset.mem_coe.1 h))
    · exact .inr (.inr h)

/-- A sum with a `NaN` among its terms is a `NaN`. -/
theorem addTree_nan (hnan : ∀ x y : V, isNan x = true ∨ isNan y = true → isNan (x + y) = true) {s : Multiset V} {v : V}
    (h : AddTree s v) (hs : ∃ x ∈ s, isNan x = true) : isNan v = true := by
  induction h with
  | zero => obtain ⟨x, hx, -⟩ := hs; simp at hx
  | leaf x => obtain ⟨y, hy, hn⟩ := hs; rw [Multiset.mem_singleton] at hy; rwa [hy] at hn
  | node _ _ ih1 ih2 =>
    obtain ⟨x, hx, hn⟩ := hs
    rcases Multiset.mem_add.1 hx with hx | hx
    · exact hnan _ _ (.inl (ih1 ⟨x, hx, hn⟩))
    · exact hnan _ _ (.inr (ih2 ⟨x, hx, hn⟩))

/-- C82: where addition passes on a `NaN`, a sum over cells one of which holds a `NaN` is a `NaN`. -/
theorem prog_sum_nan (hnan : ∀ x y : V, isNan x = true ∨ isNan y = true → isNan (x + y) = true) {env : PyEnv V} (he : env.Ok)
    {e : Prog V} (hl : e.LitsOk) (hs : e.Small) (hd : e.Determined) {τ : Ty} (hc : e.check = .ok τ) (h2 : τ.Is2d)
    {axis : AxisArg} (keep : Bool) (ha : axis.Valid 2) (hne : axis ≠ .many []) {out : PyRes (RedOut V V)}
    (h : e.Reduce env .sum axis keep out) :
    ∃ r, out = .ret (.dense r) ∧ IsReduction τ.shape (axis.covers 2) keep
      (fun cells v => (∃ l ∈ cells, ∃ x ∈ l, isNan x = true) → isNan v = true) (fun x => valuesAt e.stores x) r := by
  obtain ⟨r, e1, hr⟩ := (prog_reduce_any he hl hs hd hc h2 (op := .sum) keep ha hne (fun h => by cases h)).2 out h
  refine ⟨r, e1, hr.shape_eq, hr.size, fun y hy => ?_⟩
  obtain ⟨v, h1, h2⟩ := hr.cell y hy
  refine ⟨v, h1, fun ⟨l, hl, x, hx, hn⟩ => addTree_nan hnan h2 ⟨x, ?_, hn⟩⟩
  exact Multiset.mem_coe.2 (List.mem_flatten.2 ⟨l, hl, hx⟩)

end
local instance decAxisAny (n : Nat) (a : AxisArg) : Decidable (a.Valid n) := by unfold AxisArg.Valid; infer_instance

section
local instance anyMinMaxSat : HasMinMax Sat := ⟨fun a b => if a.n ≤ b.n then a else b, fun a b => if a.n ≤ b.n then b else a,
  fun a b => if a.n ≤ b.n then a else b, fun a b => if a.n ≤ b.n then b else a, ⟨8⟩, ⟨-8⟩⟩
local instance anySqrtSat : HasSqrt Sat := ⟨id⟩

/-- Three numbers in a cell, not added in a fixed order: `5 + 7 - 6` is cut off at 8 and gives 2, in another
order 6. -/
example (dbg : Bool) : (∃ out, exSatCoo.Reduce (exEnvSat dbg 4) .sum (.one (-1)) false out) ∧
    ∀ out, exSatCoo.Reduce (exEnvSat dbg 4) .sum (.one (-1)) false out →
      ∃ r, out = .ret (.dense r) ∧ r.shape = [2] ∧ ∃ x, r.data[1]? = some x ∧ AddTree (V := Sat) ([⟨5⟩, ⟨7⟩, ⟨-6⟩] : List Sat) x := by
  have h := prog_reduce_any (exEnvSat_ok dbg (threads := 4) (by decide)) exSatCoo_lits (by decide +kernel) trivial
    (τ := .coo 2 1) (by decide +kernel) trivial (op := .sum) (axis := .one (-1)) false (by decide) (by simp) (fun h => by cases h)
  refine ⟨h.1, fun out hout => ?_⟩
  obtain ⟨r, e, hr⟩ := h.2 out hout
  have hsh : r.shape = [2] := hr.shape_eq
  obtain ⟨x, c, p⟩ := hr.cell [1] (by rw [hsh]; exact .cons ⟨by omega, by omega⟩ .nil)
  rw [hsh] at c
  refine ⟨r, e, hsh, x, c, ?_⟩
  have hc : fibre [2, 1] ((AxisArg.one (-1)).covers 2) false (fun x => valuesAt exSatCoo.stores x) [1] = [[⟨5⟩, ⟨7⟩, ⟨-6⟩]] := by decide +kernel
  have p : AddTree (((fibre [2, 1] ((AxisArg.one (-1)).covers 2) false (fun x => valuesAt exSatCoo.stores x) [1]).flatten :
    List Sat) : Multiset Sat) x := p
  rw [hc] at p
  exact p
example : AddTree (V := Sat) ([⟨5⟩, ⟨7⟩, ⟨-6⟩] : List Sat) ⟨2⟩ ∧ AddTree (V := Sat) ([⟨5⟩, ⟨7⟩, ⟨-6⟩] : List Sat) ⟨6⟩ :=
  ⟨AddTree.node (.node (.leaf (⟨5⟩ : Sat)) (.leaf (⟨7⟩ : Sat))) (.leaf (⟨-6⟩ : Sat)),
    AddTree.node (.leaf (⟨5⟩ : Sat)) (.node (.leaf (⟨7⟩ : Sat)) (.leaf (⟨-6⟩ : Sat)))⟩

/-- `prod` of the 2 × 3 matrix that stores `3` and `-5`. -/
example (dbg : Bool) (out : PyRes (RedOut Sat Sat)) :
    RedMethod (exEnvSat dbg 4) .prod .none false (SpVal.mat .csr (exStat (⟨3⟩ : Sat) ⟨-5⟩)).obj out ↔ out = .ret (.dense ⟨[], [⟨0⟩]⟩) :=
  py_prod_sparse (exEnvSat_ok dbg (threads := 4) (by decide)) (v := .mat .csr (exStat (⟨3⟩ : Sat) ⟨-5⟩)) (exStat_wf _ _)
    (show Ty.SizeOk 2 (.mat .csr 2 3) by decide) trivial (by decide +kernel) out

/-- `mean(x)` where the number of cells is not exact as a number (10 cells, cut off to 8). -/
example (dbg : Bool) : ∀ out, (Prog.coo 5 2 [4] [1] [(⟨6⟩ : Sat)]).Reduce (exEnvSat dbg 4) .mean .none true out →
    ∃ r, out = .ret (.dense r) ∧ r.shape = [1, 1] := by
  intro out hout
  obtain ⟨r, e, hr⟩ := (prog_reduce_any (exEnvSat_ok dbg (threads := 4) (by decide)) (e := .coo 5 2 [4] [1] [(⟨6⟩ : Sat)])
    ⟨by decide, by decide, ⟨rfl, rfl, by show ∀ i ∈ ([4] : List Int), 0 ≤ i ∧ i < ((5 : Nat) : Int); decide,
      by show ∀ i ∈ ([1] : List Int), 0 ≤ i ∧ i < ((2 : Nat) : Int); decide⟩,
      by show ∀ i ∈ ([4] : List Int), i ≤ i64Max; decide, by show ∀ i ∈ ([1] : List Int), i ≤ i64Max; decide⟩
    (by decide +kernel) trivial (τ := .coo 5 2) (by decide +kernel) trivial (op := .mean) (axis := .none) true
    (by simp [AxisArg.Valid, AxisArg.ints]) (by simp) (fun _ _ => by decide +kernel)).2 out hout
  exact ⟨r, e, hr.shape_eq⟩

/-- `any(x, axis=0)`. -/
example (dbg : Bool) : (∃ out, exSatA.Logic (exEnvSat dbg 4) .any (.one 0) false out) ∧
    ∀ out, exSatA.Logic (exEnvSat dbg 4) .any (.one 0) false out → ∃ r, out = .ret r ∧ r.shape = [3] ∧ r.data[2]? = some true := by
  have h := prog_logic_any (exEnvSat_ok dbg (threads := 4) (by decide)) exSatA_lits (by decide +kernel) trivial
    (τ := .mat .csc 2 3) (by decide +kernel) trivial .any (axis := .one 0) false (by decide) (by simp)
  refine ⟨h.1, fun out hout => ?_⟩
  obtain ⟨r, e, hr⟩ := h.2 out hout
  have hsh : r.shape = [3] := hr.shape_eq
  obtain ⟨x, c, p⟩ := hr.cell [2] (by rw [hsh]; exact .cons ⟨by omega, by omega⟩ .nil)
  rw [hsh] at c
  have hc : fibre [2, 3] ((AxisArg.one 0).covers 2) false (fun x => valuesAt exSatA.stores x) [2] = [[], [⟨4⟩]] := by decide +kernel
  have p : LogicOp.any.OfCells (fibre [2, 3] ((AxisArg.one 0).covers 2) false (fun x => valuesAt exSatA.stores x) [2]) x := p
  rw [hc] at p
  obtain ⟨sums, hf, rfl⟩ := p
  refine ⟨r, e, hsh, ?_⟩
  rw [show r.data[2]? = _ from c]
  cases hf with
  | cons h1 ht =>
    cases ht with
    | cons h2 ht =>
      cases ht
      obtain ⟨l1, p1, rfl⟩ := h1
      obtain ⟨l2, p2, rfl⟩ := h2
      rw [List.perm_nil.1 p1, List.perm_singleton.1 p2]
      decide +kernel

/-- `min` of a program. -/
example (dbg : Bool) : ∀ out, exSatC.Reduce (exEnvSat dbg 4) .min (.one 1) false out →
    ∃ r, out = .ret (.dense r) ∧ r.shape = [2] := by
  intro out hout
  obtain ⟨r, e, hr⟩ := prog_min_mem (fun a b => by constructor <;> (show (if _ then _ else _) = _ ∨ (if _ then _ else _) = _; split <;> simp)) (exEnvSat_ok dbg (threads := 4) (by decide)) exSatC_lits (by decide +kernel) trivial
    (τ := .mat .csr 2 3) (by decide +kernel) trivial (axis := .one 1) false (by decide) (by simp) hout
  exact ⟨r, e, hr.shape_eq⟩

example (dbg : Bool) : ∀ out, exSat.Reduce (exEnvSat dbg 4) .sum .none true out →
    ∃ r, out = .ret (.dense r) ∧ r.shape = [1] ∧ ∃ x, r.data = [x] ∧ AddTree (V := Sat) ([⟨-6⟩, ⟨-6⟩] : List Sat) x := by
  intro out hout
  obtain ⟨r, e, hr⟩ := (prog_nd_reduce_any (exEnvSat_ok dbg (threads := 4) (by decide)) exSat_lits (by decide +kernel)
    ⟨⟨trivial, trivial⟩, trivial⟩ (s := [2]) (by decide +kernel) (op := .sum) trivial true (fun h => by cases h)).2 out hout
  have hsh : r.shape = [1] := hr.shape_eq
  obtain ⟨x, c, p⟩ := hr.cell [0] (by rw [hsh]; exact .cons ⟨by omega, by omega⟩ .nil)
  rw [hsh] at c
  have hz : r.data.length = 1 := by rw [hr.size, hsh]; rfl
  obtain ⟨y, hy⟩ := List.length_eq_one_iff.1 hz
  have hxy : y = x := by rw [hy] at c; simpa [rowMajor] using c
  refine ⟨r, e, hsh, x, by rw [hy, hxy], ?_⟩
  have hc : fibre [2] (fun _ => true) true (fun x => valuesAt exSat.stores x) [0] = [[⟨-6⟩], [⟨-6⟩]] := by decide +kernel
  have p : AddTree (((fibre [2] (fun _ => true) true (fun x => valuesAt exSat.stores x) [0]).flatten : List Sat) : Multiset Sat) x := p
  rw [hc] at p
  exact p

end

section
/-- Whole numbers and a `NaN`. -/
local instance : Zero (Option Int) := ⟨some 0⟩
local instance : One (Option Int) := ⟨some 1⟩
local instance : Add (Option Int) := ⟨fun a b => match a, b with | some x, some y => some (x + y) | _, _ => none⟩
local instance : Sub (Option Int) := ⟨fun a _ => a⟩
local instance : Mul (Option Int) := ⟨fun a b => match a, b with | some x, some y => some (x * y) | _, _ => none⟩
local instance : Div (Option Int) := ⟨fun a _ => a⟩
local instance : Neg (Option Int) := ⟨Option.map (- ·)⟩
local instance : NatCast (Option Int) := ⟨fun n => some n⟩
local instance : HasFinite (Option Int) := ⟨Option.isSome⟩
local instance : HasFloor (Option Int) := ⟨id⟩
local instance : HasPowf (Option Int) := ⟨fun a _ => a⟩
local instance : HasAbs (Option Int) := ⟨Option.map fun x => (x.natAbs : Int)⟩
local instance : HasLt (Option Int) := ⟨fun a b => match a, b with | some x, some y => decide (x < y) | _, _ => false⟩
local instance : HasNan (Option Int) := ⟨Option.isNone, none⟩
local instance : HasMinMax (Option Int) := ⟨fun a _ => a, fun a _ => a, fun a _ => a, fun a _ => a, none, none⟩
local instance : HasSqrt (Option Int) := ⟨id⟩

/-- `sum(x, axis=1)` of a 2 × 3 matrix with `3` and `NaN` in the first row. -/
example (dbg : Bool) : ∀ out, (Prog.mat .csr 2 3 [0, 2, 2] [0, 2] [some 3, none]).Reduce (exEnvAny (Option Int) dbg) .sum (.one 1) false out →
    ∃ r, out = .ret (.dense r) ∧ r.shape = [2] ∧ r.data[0]? = some none := by
  intro out hout
  obtain ⟨r, e, hr⟩ := prog_sum_nan (fun x y h => by
      rcases h with h | h
      · cases x with | none => rfl | some x => cases h
      · cases y with | none => cases x <;> rfl | some y => cases h)
    (exEnvAny_ok (Option Int) dbg) (e := .mat .csr 2 3 [0, 2, 2] [0, 2] [some 3, none])
    ⟨by show ∀ i ∈ ([0, 2] : List Int), i ≤ i64Max; decide, by simp⟩ (by decide +kernel) trivial
    (τ := .mat .csr 2 3) (by decide +kernel) trivial (axis := .one 1) false (by decide) (by simp) hout
  have hsh : r.shape = [2] := hr.shape_eq
  obtain ⟨x, c, p⟩ := hr.cell [0] (by rw [hsh]; exact .cons ⟨by omega, by omega⟩ .nil)
  rw [hsh] at c
  have hx := p ⟨[none], by decide +kernel, none, by simp, rfl⟩
  cases x with
  | none => exact ⟨r, e, hsh, c⟩
  | some x => cases hx

/-- `prod(x)` of the same matrix is 0. -/
example (dbg : Bool) (out : PyRes (RedOut (Option Int) (Option Int))) :
    RedMethod (exEnvAny (Option Int) dbg) .prod .none false (SpVal.mat .csr (exStat (some 3) (none : Option Int))).obj out ↔
      out = .ret (.dense ⟨[], [some 0]⟩) :=
  py_prod_sparse (exEnvAny_ok (Option Int) dbg) (v := .mat .csr (exStat (some 3) (none : Option Int))) (exStat_wf _ _)
    (show Ty.SizeOk 2 (.mat .csr 2 3) by decide) trivial (by decide +kernel) out

end

end Lacuna
