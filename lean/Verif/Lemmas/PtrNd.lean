import Verif.Model.PtrNd
import Verif.Lemmas.PtrPrune
import Verif.Lemmas.PtrTranspose
import Verif.Lemmas.NdShape
/-
The pointer-level N-D kernels: every access stays in bounds for arbitrary index values, and what
they return is the result of the list-level model.
-/
namespace Lacuna
variable {V : Type}

theorem err_bind {α β : Type} (x : Fault) (f : α → Except Fault β) :
    (Except.error x >>= f : Except Fault β) = .error x := rfl

theorem expectP_ok {α : Type} {o : Option α} {x : α} (h : expectP o = .ok x) : o = some x := by
  cases o with
  | none => cases h
  | some y => cases h; rfl

theorem expectP_cases {α : Type} (o : Option α) : (o = none ∧ expectP o = .error .panic) ∨ ∃ x, o = some x ∧ expectP o = .ok x := by
  cases o with
  | none => exact .inl ⟨rfl, rfl⟩
  | some y => exact .inr ⟨y, rfl, rfl⟩

/-- Casting back wraps in the same way as in the list-level model. -/
theorem wrapI64_usize {x : Nat} (h : x ≤ usizeMax) : wrapI64 x = usizeToI64 x := by
  unfold usizeMax at h
  unfold wrapI64 usizeToI64 i64Max
  split <;> omega

theorem usizeToI64P_cases {dbg : Bool} {x : Nat} (h : x ≤ usizeMax) :
    usizeToI64P dbg x = .ok (usizeToI64 x) ∨
    (usizeToI64P dbg x = .error .panic ∧ dbg = true ∧ i64Max < (x : Int)) := by
  unfold usizeToI64P
  by_cases hc : (dbg && decide (i64Max < (x : Int))) = true
  · rw [if_pos hc]
    simp only [Bool.and_eq_true, decide_eq_true_eq] at hc
    exact .inr ⟨rfl, hc⟩
  · rw [if_neg hc, wrapI64_usize h]
    exact .inl rfl

theorem i64ToUsizeP_cases {dbg : Bool} (x : Int) :
    i64ToUsizeP dbg x = .ok (i64ToUsize x) ∨ (i64ToUsizeP dbg x = .error .panic ∧ dbg = true ∧ x < 0) := by
  unfold i64ToUsizeP
  by_cases hc : (dbg && decide (x < 0)) = true
  · rw [if_pos hc]
    simp only [Bool.and_eq_true, decide_eq_true_eq] at hc
    exact .inr ⟨rfl, hc⟩
  · rw [if_neg hc]
    exact .inl rfl

/-! ### linearisation -/

theorem linAxes_le {indices : List Int} {base : Nat} :
    ∀ {axes : List (Nat × Nat)} {lin r : Nat}, linAxes indices base axes lin = some r → lin ≤ usizeMax → r ≤ usizeMax
  | [], lin, r, h, hl => by
    simp only [linAxes, Option.some.injEq] at h
    omega
  | (d, s) :: rest, lin, r, h, hl => by
    rw [linAxes] at h
    cases h1 : indices[base + d]? with
    | none => rw [h1] at h; cases h
    | some i =>
      rw [h1, Option.bind_some] at h
      cases h2 : checkedMul (i64ToUsize i) s with
      | none => rw [h2] at h; cases h
      | some p =>
        rw [h2, Option.bind_some] at h
        cases h3 : checkedAdd lin p with
        | none => rw [h3] at h; cases h
        | some l =>
          rw [h3, Option.bind_some] at h
          refine linAxes_le h ?_
          unfold checkedAdd at h3
          split at h3
          · cases h3; assumption
          · cases h3

/-- One of the axes of an entry holds a negative index. -/
def NegAt (indices : List Int) (base : Nat) (axes : List Nat) : Prop :=
  ∃ d ∈ axes, ∃ i, indices[base + d]? = some i ∧ i < 0

theorem linFold_spec {dbg : Bool} {indices : List Int} {base : Nat} {stride : Nat → Except Fault Nat} :
    ∀ {axes st : List Nat} {n lin : Nat}, axes.length = st.length →
    (∀ m s, st[m]? = some s → stride (n + m) = .ok s) →
    (∀ d ∈ axes, base + d < indices.length ∧ base + d ≤ usizeMax) →
    (axes.zipIdx n).foldlM (linStepP dbg indices base stride) lin = expectP (linAxes indices base (axes.zip st) lin) ∨
    ((axes.zipIdx n).foldlM (linStepP dbg indices base stride) lin = .error .panic ∧ dbg = true ∧ NegAt indices base axes)
  | [], st, n, lin, _, _, _ => by
    left
    simp [linAxes, expectP]
    rfl
  | d :: axes, [], n, lin, hl, _, _ => by simp at hl
  | d :: axes, s :: st, n, lin, hl, hs, hb => by
    obtain ⟨b1, b2⟩ := hb d (by simp)
    have hg := List.getElem?_eq_getElem b1
    have hs0 : stride n = .ok s := by simpa using hs 0 s (by simp)
    rw [List.zipIdx_cons, List.foldlM_cons, List.zip_cons_cons, linAxes, hg, Option.bind_some]
    have e : linStepP dbg indices base stride lin (d, n) =
        (i64ToUsizeP dbg indices[base + d] >>= fun idx =>
          expectP (checkedMul idx s) >>= fun q => expectP (checkedAdd lin q)) := by
      unfold linStepP
      rw [addUsize_eq b2, ok_bind, getUnchecked_eq b1, ok_bind]
      simp only [hs0, ok_bind]
    rw [e]
    rcases i64ToUsizeP_cases (dbg := dbg) indices[base + d] with h1 | ⟨h1, h2, h3⟩
    · rw [h1, ok_bind]
      rcases expectP_cases (checkedMul (i64ToUsize indices[base + d]) s) with ⟨e1, e2⟩ | ⟨q, e1, e2⟩
      · left
        rw [e2, e1, err_bind, err_bind]
        rfl
      rw [e2, e1, ok_bind, Option.bind_some]
      rcases expectP_cases (checkedAdd lin q) with ⟨e1, e2⟩ | ⟨l, e1, e2⟩
      · left
        rw [e2, e1, err_bind]
        rfl
      rw [e2, e1, ok_bind, Option.bind_some]
      rcases linFold_spec (dbg := dbg) (indices := indices) (base := base) (stride := stride) (axes := axes) (st := st) (n := n + 1) (lin := l)
        (by simpa using hl)
        (fun m s' hm => by
          have := hs (m + 1) s' (by simpa using hm)
          rwa [show n + 1 + m = n + (m + 1) by omega])
        (fun d' hd => hb d' (by simp [hd])) with h | ⟨h, h', x, hx, hn⟩
      · exact .inl h
      · exact .inr ⟨h, h', x, by simp [hx], hn⟩
    · right
      rw [h1, err_bind, err_bind]
      exact ⟨rfl, h2, d, by simp, _, hg, h3⟩

theorem linP_spec {dbg : Bool} {indices : List Int} {base : Nat} {stride : Nat → Except Fault Nat}
    {axes st : List Nat} (hl : axes.length = st.length) (hs : ∀ m s, st[m]? = some s → stride m = .ok s)
    (hb : ∀ d ∈ axes, base + d < indices.length ∧ base + d ≤ usizeMax) :
    linP dbg indices base stride axes = expectP (linAxes indices base (axes.zip st) 0) ∨
    (linP dbg indices base stride axes = .error .panic ∧ dbg = true ∧ NegAt indices base axes) := by
  unfold linP
  exact linFold_spec hl (fun m s hm => by rw [Nat.zero_add]; exact hs m s hm) hb

/-! ### de-linearisation -/

theorem delin_length' (ss : List Nat) : ∀ lin, (delin ss lin).length = ss.length := by
  induction ss with
  | nil => intro lin; rfl
  | cons s ss ih => intro lin; simp [delin, ih]

theorem delinFold_spec {dbg : Bool} {ns : List Nat} {cap base : Nat} (hc : cap ≤ usizeMax) :
    ∀ {ss : List Nat} {n rem : Nat} {evs : List (Nat × Int)}, (∀ m, ns[n + m]? = ss[m]?) →
    base + n + ss.length ≤ cap → rem ≤ usizeMax →
    (∃ r, (List.range' n ss.length).foldlM (delinStepP dbg ns cap base) (rem, evs) =
      .ok (r, evs ++ lineWrites (base + n) ((delin ss rem).map usizeToI64))) ∨
    ((List.range' n ss.length).foldlM (delinStepP dbg ns cap base) (rem, evs) = .error .panic ∧ dbg = true ∧
      ∃ x ∈ delin ss rem, i64Max < (x : Int))
  | [], n, rem, evs, _, _, _ => by
    left
    exact ⟨rem, by simp [delin, lineWrites]; rfl⟩
  | s :: ss, n, rem, evs, hn, hb, hr => by
    simp only [List.length_cons] at hb
    have hs : index ns n = .ok s := by
      have := hn 0
      simp only [Nat.add_zero, List.getElem?_cons_zero] at this
      unfold index; rw [this]
    have hi : (if s = 0 then 0 else rem / s) = rem / s := by
      split
      · rename_i h0; rw [h0, Nat.div_zero]
      · rfl
    have hq : rem / s * s ≤ rem := Nat.div_mul_le_self rem s
    have hd : rem / s ≤ rem := Nat.div_le_self rem s
    have e : delinStepP dbg ns cap base (rem, evs) n =
        (usizeToI64P dbg (rem / s) >>= fun x => (.ok (rem - rem / s * s, evs ++ [(base + n, x)]) : Except Fault DelinSt)) := by
      unfold delinStepP
      rw [hs, ok_bind]
      simp only [hi]
      rw [mulUsize_eq (by omega), ok_bind, subUsize_eq hq, ok_bind, addUsize_eq (by omega), ok_bind,
        MutPtr.add_zero_eq (by omega), ok_bind]
      congr 1
      funext x
      rw [MutPtr.write_eq (by omega), ok_bind]
      rfl
    rw [List.length_cons, List.range'_succ, List.foldlM_cons, e, delin]
    rcases usizeToI64P_cases (dbg := dbg) (x := rem / s) (by omega) with h1 | ⟨h1, h2, h3⟩
    · rw [h1, ok_bind, ok_bind]
      rcases delinFold_spec (dbg := dbg) (ns := ns) (cap := cap) (base := base) hc (ss := ss) (n := n + 1)
        (rem := rem - rem / s * s) (evs := evs ++ [(base + n, usizeToI64 (rem / s))])
        (fun m => by
          have := hn (m + 1)
          rw [show n + 1 + m = n + (m + 1) by omega, this, List.getElem?_cons_succ]) (by omega) (by omega)
        with ⟨r, h⟩ | ⟨h, h', x, hx, hn'⟩
      · left
        exact ⟨r, by rw [h]; simp [lineWrites, Nat.add_assoc]⟩
      · right
        exact ⟨h, h', x, by simp [hx], hn'⟩
    · right
      rw [h1, err_bind, err_bind]
      exact ⟨rfl, h2, rem / s, by simp, h3⟩

/-! ### parallel loops whose items store into consecutive blocks -/

theorem parEach_cases {α β : Type} {items : List α} {f : α → Except Fault β} {g : α → β}
    (h : ∀ i ∈ items, f i = .ok (g i) ∨ f i = .error .panic) (oe : Except Fault (List β)) :
    ParEach items f oe ↔ ((∃ i ∈ items, f i = .error .panic) ∧ oe = .error .panic) ∨
      ((∀ i ∈ items, f i = .ok (g i)) ∧ oe = .ok (items.map g)) := by
  cases oe with
  | error x =>
    constructor
    · rintro ⟨i, hi, he⟩
      rcases h i hi with h1 | h1
      · rw [h1] at he; cases he
      · rw [h1] at he; cases he
        exact .inl ⟨⟨i, hi, h1⟩, rfl⟩
    · rintro (⟨⟨i, hi, he⟩, hx⟩ | ⟨_, hx⟩)
      · cases hx; exact ⟨i, hi, he⟩
      · cases hx
  | ok l =>
    have key : (∀ i ∈ items, f i = .ok (g i)) → items.map f = (items.map g).map .ok := by
      intro hk
      rw [List.map_map]
      exact List.map_congr_left fun i hi => hk i hi
    constructor
    · intro he
      have he' : items.map f = l.map .ok := he
      have hk : ∀ i ∈ items, f i = .ok (g i) := by
        intro i hi
        rcases h i hi with h1 | h1
        · exact h1
        · have : f i ∈ l.map (Except.ok (ε := Fault)) := by rw [← he']; exact List.mem_map_of_mem hi
          obtain ⟨y, _, hy⟩ := List.mem_map.1 this
          rw [h1] at hy; cases hy
      refine .inr ⟨hk, ?_⟩
      rw [key hk] at he'
      congr 1
      exact (List.map_injective_iff.2 (fun _ _ hh => by cases hh; rfl) he').symm
    · rintro (⟨_, hx⟩ | ⟨hk, hx⟩)
      · cases hx
      · cases hx; exact key hk

theorem flatMap_blocks {α : Type} {w : Nat} {blocks : Nat → List α} :
    ∀ {n : Nat}, (∀ k, k < n → (blocks k).length = w) →
    ((List.range n).map fun k => lineWrites (k * w) (blocks k)).flatten = lineWrites 0 ((List.range n).flatMap blocks) ∧
    ((List.range n).flatMap blocks).length = n * w
  | 0, _ => by simp [lineWrites]
  | n + 1, h => by
    obtain ⟨h1, h2⟩ := flatMap_blocks (n := n) fun k hk => h k (by omega)
    constructor
    · rw [List.range_succ, List.map_append, List.flatten_append, h1, List.flatMap_append, lineWrites_append, h2]
      simp
    · rw [List.range_succ, List.flatMap_append, List.length_append, h2]
      simp [h n (by omega), Nat.add_mul]

theorem parStore_blocks {α : Type} {w n : Nat} {blocks : Nat → List α} {buf : List α}
    (h : ∀ k, k < n → (blocks k).length = w) (hb : buf.length = n * w) (o : Except Fault (List α)) :
    ParStore buf ((List.range n).map fun k => lineWrites (k * w) (blocks k)) o ↔
      o = .ok ((List.range n).flatMap blocks) := by
  obtain ⟨h1, h2⟩ := flatMap_blocks h
  refine parStore_iff ?_ ?_ o
  · rw [h1, lineWrites_fst]; exact List.nodup_range'
  · intro w' hw
    exact applyWrites_scatter (hw.trans (h1 ▸ List.Perm.refl _)) (by rw [hb, h2])

/-! ### list-level side -/

theorem mapM_zipIdx_zip {α β : Type} {F : Nat → Option β} :
    ∀ (data : List α) (n : Nat), (data.zipIdx n).mapM (fun e => (F e.2).map fun k => (k, e.1)) =
      ((List.range' n data.length).mapM F).map fun l => l.zip data
  | [], n => rfl
  | x :: data, n => by
    rw [List.zipIdx_cons, List.mapM_cons, mapM_zipIdx_zip data (n + 1), List.length_cons, List.range'_succ, List.mapM_cons]
    cases F n with
    | none => rfl
    | some k =>
      simp only [Option.map_some, Option.bind_eq_bind, Option.bind_some]
      cases (List.range' (n + 1) data.length).mapM F with
      | none => rfl
      | some l => rfl

theorem ndOps_range (a : CooNd V) (axes : List (Nat × Nat)) :
    ndOps a axes id = ((List.range a.data.length).mapM fun k => linAxes a.indices (k * a.shape.length) axes 0).map
      fun l => l.zip a.data := by
  unfold ndOps
  have := mapM_zipIdx_zip (F := fun k => linAxes a.indices (k * a.shape.length) axes 0) a.data 0
  rw [← List.range_eq_range'] at this
  exact this

theorem mapM_opt_cases {α β : Type} {f : α → Option β} :
    ∀ (l : List α), (l.mapM f = none ∧ ∃ x ∈ l, f x = none) ∨ ∃ ys, l.mapM f = some ys ∧ l.map f = ys.map some
  | [] => .inr ⟨[], rfl, rfl⟩
  | x :: l => by
    rw [List.mapM_cons]
    cases hx : f x with
    | none => exact .inl ⟨rfl, x, by simp, hx⟩
    | some y =>
      rcases mapM_opt_cases (f := f) l with ⟨h1, z, hz, h2⟩ | ⟨ys, h1, h2⟩
      · left
        exact ⟨by rw [h1]; rfl, z, by simp [hz], h2⟩
      · right
        exact ⟨y :: ys, by rw [h1]; rfl, by rw [List.map_cons, List.map_cons, hx, h2]⟩

theorem strides?_len : ∀ {sh st : List Nat}, strides? sh = some st → st.length = sh.length
  | [], st, h => by cases h; rfl
  | [_], st, h => by cases h; rfl
  | x :: y :: rest, st, h => by
    rw [strides?] at h
    cases h1 : strides? (y :: rest) with
    | none => rw [h1] at h; cases h
    | some t =>
      rw [h1, Option.bind_some] at h
      cases h2 : checkedMul (t.headD 1) y with
      | none => rw [h2] at h; cases h
      | some p =>
        rw [h2] at h
        cases h
        have := strides?_len h1
        simp at this ⊢
        omega

/-! ### reshape -/

/-- Linear index of entry `k`. -/
def entryLin (a : CooNd V) (os : List Nat) (k : Nat) : Option Nat :=
  linAxes a.indices (k * a.shape.length) ((List.range a.shape.length).zip os) 0

/-- New coordinates of entry `k`. -/
def entryNew (a : CooNd V) (os ns : List Nat) (k : Nat) : List Nat :=
  match entryLin a os k with
  | some lin => delin ns lin
  | none => List.replicate ns.length 0

theorem entryNew_length (a : CooNd V) (os ns : List Nat) (k : Nat) : (entryNew a os ns k).length = ns.length := by
  unfold entryNew
  split
  · exact delin_length' _ _
  · simp

/-- What makes entry `k` panic: the linear index overflows or, with debug assertions, a negative
index or a new coordinate that does not fit `i64`. -/
def EntryBad (dbg : Bool) (a : CooNd V) (os ns : List Nat) (k : Nat) : Prop :=
  entryLin a os k = none ∨
  (dbg = true ∧ (NegAt a.indices (k * a.shape.length) (List.range a.shape.length) ∨
    ∃ x ∈ entryNew a os ns k, i64Max < (x : Int)))

theorem entry_base {nnz nd k d : Nat} (hk : k < nnz) (hd : d < nd) : k * nd + d < nnz * nd := by
  have := Nat.mul_le_mul_right nd (show k + 1 ≤ nnz by omega)
  rw [Nat.add_mul] at this
  omega

theorem entry_base_le {nnz nd k : Nat} (hk : k < nnz) : k * nd + nd ≤ nnz * nd := by
  have := Nat.mul_le_mul_right nd (show k + 1 ≤ nnz by omega)
  rw [Nat.add_mul] at this
  omega

theorem reshapeLin_spec {dbg : Bool} {a : CooNd V} {os : List Nat} (hI : a.data.length * a.shape.length ≤ a.indices.length)
    (hU : a.data.length * a.shape.length ≤ usizeMax) (hos : os.length = a.shape.length) {k : Nat} (hk : k < a.data.length) :
    linP dbg a.indices (k * a.shape.length) (index os) (List.range a.shape.length) = expectP (entryLin a os k) ∨
    (linP dbg a.indices (k * a.shape.length) (index os) (List.range a.shape.length) = .error .panic ∧ dbg = true ∧
      NegAt a.indices (k * a.shape.length) (List.range a.shape.length)) := by
  refine linP_spec (by rw [List.length_range, hos]) ?_ ?_
  · intro m s hm
    unfold index; rw [hm]
  · intro d hd
    rw [List.mem_range] at hd
    have := entry_base hk hd
    omega

theorem reshapeItemP_spec {dbg : Bool} {a : CooNd V} {os ns : List Nat} {cap k : Nat}
    (hI : a.data.length * a.shape.length ≤ a.indices.length) (hU : a.data.length * a.shape.length ≤ usizeMax)
    (hos : os.length = a.shape.length) (hcap : cap = a.data.length * ns.length) (hcu : cap ≤ usizeMax)
    (hk : k < a.data.length) :
    reshapeItemP dbg a os ns ns.length cap k =
      .ok (lineWrites (k * ns.length) ((entryNew a os ns k).map usizeToI64)) ∧ entryLin a os k ≠ none ∨
    (reshapeItemP dbg a os ns ns.length cap k = .error .panic ∧ EntryBad dbg a os ns k) := by
  have b1 := entry_base_le (nd := a.shape.length) hk
  have b2 := entry_base_le (nd := ns.length) hk
  unfold reshapeItemP
  rw [mulUsize_eq (by omega), ok_bind]
  rcases reshapeLin_spec (dbg := dbg) hI hU hos hk with h | ⟨h, h1, h2⟩
  · rw [h]
    cases hl : entryLin a os k with
    | none =>
      right
      exact ⟨rfl, .inl hl⟩
    | some lin =>
      have hlu : lin ≤ usizeMax := linAxes_le hl (by decide)
      rw [show expectP (some lin) = .ok lin from rfl, ok_bind, mulUsize_eq (by omega), ok_bind]
      have hen : entryNew a os ns k = delin ns lin := by unfold entryNew; rw [hl]
      rw [List.range_eq_range']
      rcases delinFold_spec (dbg := dbg) (ns := ns) (cap := cap) (base := k * ns.length) hcu (ss := ns) (n := 0)
        (rem := lin) (evs := []) (fun m => by rw [Nat.zero_add]) (by omega) hlu with ⟨r, h'⟩ | ⟨h', h1, x, hx, hx'⟩
      · left
        rw [h', ok_bind, hen]
        exact ⟨rfl, by simp⟩
      · right
        rw [h', err_bind]
        exact ⟨rfl, .inr ⟨h1, .inr ⟨x, by rw [hen]; exact hx, hx'⟩⟩⟩
  · right
    rw [h, err_bind]
    exact ⟨rfl, .inr ⟨h1, .inl h2⟩⟩

/-- The parallel loop: a panic of some entry, or the flat array of new coordinates. -/
theorem reshapeLoop_iff {dbg : Bool} {a : CooNd V} {os ns : List Nat} {buf : List Int}
    (hI : a.data.length * a.shape.length ≤ a.indices.length) (hU : a.data.length * a.shape.length ≤ usizeMax)
    (hos : os.length = a.shape.length) (hcap : buf.length = a.data.length * ns.length) (hcu : buf.length ≤ usizeMax)
    {α : Type} (mk : List Int → α) (out : Except Fault α) :
    (∃ oe, ParEach (List.range a.data.length) (reshapeItemP dbg a os ns ns.length buf.length) oe ∧
      match oe with
      | .error x => out = .error x
      | .ok evs => ∃ o, ParStore buf evs o ∧ out = o.map mk) ↔
    ((∃ k, k < a.data.length ∧ reshapeItemP dbg a os ns ns.length buf.length k = .error .panic) ∧ out = .error .panic) ∨
    ((∀ k, k < a.data.length → reshapeItemP dbg a os ns ns.length buf.length k =
        .ok (lineWrites (k * ns.length) ((entryNew a os ns k).map usizeToI64))) ∧
      out = .ok (mk ((List.range a.data.length).flatMap fun k => (entryNew a os ns k).map usizeToI64))) := by
  have hc := parEach_cases (items := List.range a.data.length) (f := reshapeItemP dbg a os ns ns.length buf.length)
    (g := fun k => lineWrites (k * ns.length) ((entryNew a os ns k).map usizeToI64))
    (fun i hi => by
      rcases reshapeItemP_spec (dbg := dbg) hI hU hos hcap hcu (List.mem_range.1 hi) with h | h
      · exact .inl h.1
      · exact .inr h.1)
  have hs := parStore_blocks (w := ns.length) (n := a.data.length) (buf := buf)
    (blocks := fun k => (entryNew a os ns k).map usizeToI64)
    (fun k _ => by rw [List.length_map, entryNew_length]) hcap
  simp only [List.mem_range] at hc
  constructor
  · rintro ⟨oe, h1, h2⟩
    rcases (hc oe).1 h1 with ⟨hb, rfl⟩ | ⟨hb, rfl⟩
    · exact .inl ⟨hb, h2⟩
    · obtain ⟨o, h3, rfl⟩ := h2
      rw [(hs o).1 h3]
      exact .inr ⟨hb, rfl⟩
  · rintro (⟨hb, rfl⟩ | ⟨hb, rfl⟩)
    · exact ⟨_, (hc _).2 (.inl ⟨hb, rfl⟩), rfl⟩
    · exact ⟨_, (hc _).2 (.inr ⟨hb, rfl⟩), _, (hs _).2 rfl, rfl⟩

/-- The list-level result, entry by entry. -/
theorem reshapeNd_entries {a : CooNd V} {newShape os ns : List Nat} {n : Nat} (h1 : productChecked a.shape = some n)
    (h2 : productChecked newShape = some n) (h0 : a.data.length ≠ 0) (h3 : strides? a.shape = some os)
    (h4 : strides? newShape = some ns) :
    (reshapeNd a newShape = none ∧ ∃ k, k < a.data.length ∧ entryLin a os k = none) ∨
    ((∀ k, k < a.data.length → entryLin a os k ≠ none) ∧
      reshapeNd a newShape =
        some ⟨newShape, (List.range a.data.length).flatMap fun k => (entryNew a os ns k).map usizeToI64, a.data⟩) := by
  have e : reshapeNd a newShape = (ndOps a ((List.range a.shape.length).zip os) id).bind fun ops =>
      some ⟨newShape, ops.flatMap fun e => (delin ns e.1).map usizeToI64, a.data⟩ := by
    unfold reshapeNd
    rw [h1, h2, h3, h4]
    simp only [Option.bind_some]
    rw [if_neg (by simp), if_neg h0]
  rw [e, ndOps_range]
  rcases mapM_opt_cases (f := fun k => linAxes a.indices (k * a.shape.length) ((List.range a.shape.length).zip os) 0)
    (List.range a.data.length) with ⟨h, k, hk, hn⟩ | ⟨ys, h, hy⟩
  · left
    rw [h]
    exact ⟨rfl, k, List.mem_range.1 hk, hn⟩
  · right
    have hl : ys.length = a.data.length := by
      have := congrArg List.length hy
      simpa using this.symm
    have hk : ∀ k (hk : k < a.data.length), entryLin a os k = some ys[k] := by
      intro k hk
      have := congrArg (fun l => l[k]?) hy
      simp only [List.getElem?_map, List.getElem?_range hk, Option.map_some] at this
      rw [List.getElem?_eq_getElem (by omega)] at this
      simpa [entryLin] using this
    refine ⟨fun k hk' => by rw [hk k hk']; simp, ?_⟩
    rw [h]
    simp only [Option.map_some, Option.bind_some]
    congr 2
    have e1 : (ys.zip a.data).flatMap (fun e => (delin ns e.1).map usizeToI64) =
        ys.flatMap fun y => (delin ns y).map usizeToI64 := by
      have : ys = (ys.zip a.data).map Prod.fst := by
        rw [List.map_fst_zip (by omega)]
      conv => rhs; rw [this]
      rw [List.flatMap_map]
    rw [e1]
    have e2 : ys = (List.range a.data.length).map fun k => ys.getD k 0 := by
      apply List.ext_getElem
      · simp [hl]
      · intro i h1 h2
        simp [List.getElem?_eq_getElem h1]
    conv => lhs; rw [e2]
    rw [List.flatMap_map]
    refine List.flatMap_congr ?_
    intro k hk'
    have hk' := List.mem_range.1 hk'
    unfold entryNew
    rw [hk k hk']
    simp [List.getElem?_eq_getElem (show k < ys.length by omega)]

theorem delin_le : ∀ {ss : List Nat} {lin x : Nat}, x ∈ delin ss lin → x ≤ lin
  | [], _, _, h => by cases h
  | s :: ss, lin, x, h => by
    rw [delin, List.mem_cons] at h
    rcases h with rfl | h
    · exact Nat.div_le_self _ _
    · have := delin_le h; omega

theorem usizeToI64_neg {x : Nat} (h : x ≤ usizeMax) (h' : i64Max < (x : Int)) : usizeToI64 x < 0 := by
  unfold usizeToI64
  rw [if_neg (by omega)]
  unfold usizeMax at h
  omega

/-- A panic that the list-level model does not have: the index array cannot be allocated or,
with debug assertions, a negative index is read or stored. -/
def ReshapeExtra (dbg : Bool) (a : CooNd V) (newShape : List Nat) (r : CooNd V) : Prop :=
  i64Max < 8 * ((a.data.length * newShape.length : Nat) : Int) ∨
  (dbg = true ∧ ((∃ i ∈ a.indices, i < 0) ∨ ∃ i ∈ r.indices, i < 0))

/-- Every run of `reshape` has the same outcome: the result of the list-level model, or a panic. -/
theorem reshapePtr_core {dbg : Bool} {a : CooNd V} {newShape : List Nat}
    (hI : a.data.length * a.shape.length ≤ a.indices.length) (hU : a.data.length * a.shape.length ≤ usizeMax)
    (hN : a.data.length * newShape.length ≤ usizeMax) :
    (reshapeNd a newShape = none ∧ ∀ out, ReshapePtr dbg a newShape out ↔ out = .error .panic) ∨
    ∃ r, reshapeNd a newShape = some r ∧ ((∀ out, ReshapePtr dbg a newShape out ↔ out = .ok r) ∨
      ((∀ out, ReshapePtr dbg a newShape out ↔ out = .error .panic) ∧ ReshapeExtra dbg a newShape r)) := by
  cases h1 : productChecked a.shape with
  | none =>
    left
    constructor
    · unfold reshapeNd; rw [h1]; rfl
    · intro out; unfold ReshapePtr reshapeCheckP; rw [h1]; rfl
  | some n =>
  cases h2 : productChecked newShape with
  | none =>
    left
    constructor
    · unfold reshapeNd; rw [h1, h2]; rfl
    · intro out; unfold ReshapePtr reshapeCheckP; rw [h1, h2]; rfl
  | some n' =>
  by_cases hn : n = n'
  swap
  · left
    constructor
    · unfold reshapeNd; rw [h1, h2]; simp only [Option.bind_some]; rw [if_pos hn]
    · intro out
      unfold ReshapePtr reshapeCheckP
      rw [h1, h2]
      simp only [expectP, ok_bind]
      rw [if_neg hn]
  subst hn
  have hc : reshapeCheckP a newShape = .ok () := by
    unfold reshapeCheckP
    rw [h1, h2]
    simp only [expectP, ok_bind]
    exact if_pos trivial
  by_cases h0 : a.data.length = 0
  · right
    refine ⟨⟨newShape, [], []⟩, ?_, .inl ?_⟩
    · unfold reshapeNd; rw [h1, h2]; simp only [Option.bind_some]; rw [if_neg (by simp), if_pos h0]
    · intro out
      unfold ReshapePtr
      rw [hc]
      simp only []
      rw [if_pos h0]
  cases h3 : strides? a.shape with
  | none =>
    left
    constructor
    · unfold reshapeNd; rw [h1, h2, h3]; simp only [Option.bind_some]; rw [if_neg (by simp), if_neg h0]; rfl
    · intro out
      unfold ReshapePtr
      rw [hc]
      simp only []
      rw [if_neg h0]
      unfold reshapePlanP
      rw [h3]; rfl
  | some os =>
  cases h4 : strides? newShape with
  | none =>
    left
    constructor
    · unfold reshapeNd; rw [h1, h2, h3, h4]; simp only [Option.bind_some]; rw [if_neg (by simp), if_neg h0]; rfl
    · intro out
      unfold ReshapePtr
      rw [hc]
      simp only []
      rw [if_neg h0]
      unfold reshapePlanP
      rw [h3, h4]; rfl
  | some ns =>
  have hns := strides?_len h4
  have hos := strides?_len h3
  have hplan : reshapePlanP dbg a newShape =
      (zerosP (a.data.length * newShape.length) >>= fun buf => (.ok (os, ns, buf) : Except Fault _)) := by
    unfold reshapePlanP
    rw [h3, h4, mulUsize_eq hN]
    rfl
  have hent := reshapeNd_entries h1 h2 h0 h3 h4
  by_cases hz : 8 * ((a.data.length * newShape.length : Nat) : Int) ≤ i64Max
  swap
  · have hzp : zerosP (a.data.length * newShape.length) = .error .panic := by unfold zerosP; rw [if_neg hz]
    have hall : ∀ out, ReshapePtr dbg a newShape out ↔ out = .error .panic := by
      intro out
      unfold ReshapePtr
      rw [hc]
      simp only []
      rw [if_neg h0, hplan, hzp]
      rfl
    rcases hent with ⟨h, _⟩ | ⟨_, h⟩
    · exact .inl ⟨h, hall⟩
    · exact .inr ⟨_, h, .inr ⟨hall, .inl (by omega)⟩⟩
  rw [zerosP_ok hz, ok_bind] at hplan
  have hloop := fun out => (show ReshapePtr dbg a newShape out ↔ (∃ oe, ParEach (List.range a.data.length)
      (reshapeItemP dbg a os ns ns.length (List.replicate (a.data.length * ns.length) (0 : Int)).length) oe ∧
      match oe with
      | .error x => out = .error x
      | .ok evs => ∃ o, ParStore (List.replicate (a.data.length * ns.length) (0 : Int)) evs o ∧
        out = o.map fun ix => (⟨newShape, ix, a.data⟩ : CooNd V)) by
    unfold ReshapePtr
    rw [hc]
    simp only []
    rw [if_neg h0, hplan]
    simp only []
    rw [← hns]; exact Iff.rfl).trans
    (reshapeLoop_iff (dbg := dbg) (ns := ns) (buf := List.replicate (a.data.length * ns.length) 0) hI hU hos
      (by rw [List.length_replicate]) (by rw [List.length_replicate, hns]; exact hN)
      (fun ix => (⟨newShape, ix, a.data⟩ : CooNd V)) out)
  have hitem : ∀ k, k < a.data.length → _ := fun k hk =>
    reshapeItemP_spec (dbg := dbg) (ns := ns) (cap := (List.replicate (a.data.length * ns.length) (0 : Int)).length)
      hI hU hos (by rw [List.length_replicate]) (by rw [List.length_replicate, hns]; exact hN) hk
  by_cases hbad : ∃ k, k < a.data.length ∧
      reshapeItemP dbg a os ns ns.length (List.replicate (a.data.length * ns.length) (0 : Int)).length k = .error .panic
  · have hall : ∀ out, ReshapePtr dbg a newShape out ↔ out = .error .panic := by
      intro out
      rw [hloop out]
      constructor
      · rintro (⟨_, h⟩ | ⟨h, _⟩)
        · exact h
        · obtain ⟨k, hk, hb⟩ := hbad
          rw [h k hk] at hb; cases hb
      · intro h; exact .inl ⟨hbad, h⟩
    rcases hent with ⟨h, _⟩ | ⟨hok, h⟩
    · exact .inl ⟨h, hall⟩
    · refine .inr ⟨_, h, .inr ⟨hall, .inr ?_⟩⟩
      obtain ⟨k, hk, hb⟩ := hbad
      rcases hitem k hk with ⟨h', _⟩ | ⟨_, h'⟩
      · rw [h'] at hb; cases hb
      rcases h' with h' | ⟨hd, ⟨d, _, i, hi, hneg⟩ | ⟨x, hx, hbig⟩⟩
      · exact absurd h' (hok k hk)
      · exact ⟨hd, .inl ⟨i, List.mem_of_getElem? hi, hneg⟩⟩
      · refine ⟨hd, .inr ⟨usizeToI64 x, ?_, ?_⟩⟩
        · exact List.mem_flatMap.2 ⟨k, List.mem_range.2 hk, List.mem_map_of_mem hx⟩
        · refine usizeToI64_neg ?_ hbig
          unfold entryNew at hx
          cases hl : entryLin a os k with
          | none => exact absurd hl (hok k hk)
          | some lin =>
            rw [hl] at hx
            have := delin_le hx
            have := linAxes_le hl (by decide)
            omega
  · have hgood : ∀ k, k < a.data.length → reshapeItemP dbg a os ns ns.length
        (List.replicate (a.data.length * ns.length) (0 : Int)).length k =
        .ok (lineWrites (k * ns.length) ((entryNew a os ns k).map usizeToI64)) ∧ entryLin a os k ≠ none := by
      intro k hk
      rcases hitem k hk with h | ⟨h, _⟩
      · exact h
      · exact absurd ⟨k, hk, h⟩ hbad
    rcases hent with ⟨_, k, hk, h⟩ | ⟨_, h⟩
    · exact absurd h (hgood k hk).2
    · refine .inr ⟨_, h, .inl ?_⟩
      intro out
      rw [hloop out]
      constructor
      · rintro (⟨h, _⟩ | ⟨_, h⟩)
        · exact absurd h hbad
        · exact h
      · intro h; exact .inr ⟨fun k hk => (hgood k hk).1, h⟩

/-! ### unfolding -/

/-- Linear row (or column) index of entry `k`. -/
def axesLin (a : CooNd V) (axes st : List Nat) (k : Nat) : Option Nat :=
  linAxes a.indices (k * a.shape.length) (axes.zip st) 0

theorem axesLin_le {a : CooNd V} {axes st : List Nat} {k r : Nat} (h : axesLin a axes st k = some r) : r ≤ usizeMax :=
  linAxes_le h (by decide)

theorem axesLinP_spec {dbg : Bool} {a : CooNd V} {axes st : List Nat}
    (hI : a.data.length * a.shape.length ≤ a.indices.length) (hU : a.data.length * a.shape.length ≤ usizeMax)
    (hl : st.length = axes.length) (hax : ∀ d ∈ axes, d < a.shape.length) {k : Nat} (hk : k < a.data.length) :
    linP dbg a.indices (k * a.shape.length) (strideOrP st) axes = expectP (axesLin a axes st k) ∨
    (linP dbg a.indices (k * a.shape.length) (strideOrP st) axes = .error .panic ∧ dbg = true ∧ ∃ i ∈ a.indices, i < 0) := by
  rcases linP_spec (dbg := dbg) (indices := a.indices) (base := k * a.shape.length) (stride := strideOrP st) hl.symm
    (fun m s hm => by
      unfold strideOrP
      rw [if_neg (by cases st with
        | nil => simp at hm
        | cons => simp)]
      unfold index; rw [hm])
    (fun d hd => by
      have := entry_base hk (hax d hd)
      omega) with h | ⟨h, h1, d, hd, i, hi, hn⟩
  · exact .inl h
  · exact .inr ⟨h, h1, i, List.mem_of_getElem? hi, hn⟩

/-- The plan of a valid call. -/
structure PlanOk (a : CooNd V) (rowAxes : List Nat) (pl : UnfoldPlan) : Prop where
  rst : pl.rst.length = rowAxes.length
  cst : pl.cst.length = pl.colAxes.length
  row : ∀ d ∈ rowAxes, d < a.shape.length
  col : ∀ d ∈ pl.colAxes, d < a.shape.length

/-- What makes entry `k` panic. -/
def UnfoldBad (dbg : Bool) (a : CooNd V) (rowAxes : List Nat) (pl : UnfoldPlan) (k : Nat) : Prop :=
  axesLin a rowAxes pl.rst k = none ∨ axesLin a pl.colAxes pl.cst k = none ∨
  (dbg = true ∧ ((∃ i ∈ a.indices, i < 0) ∨
    (∃ r, axesLin a rowAxes pl.rst k = some r ∧ usizeToI64 r < 0) ∨
    (∃ c, axesLin a pl.colAxes pl.cst k = some c ∧ usizeToI64 c < 0)))

theorem unfoldLinP_spec {dbg : Bool} {a : CooNd V} {rowAxes : List Nat} {pl : UnfoldPlan}
    (hI : a.data.length * a.shape.length ≤ a.indices.length) (hU : a.data.length * a.shape.length ≤ usizeMax)
    (hp : PlanOk a rowAxes pl) {k : Nat} (hk : k < a.data.length) :
    (∃ r c, axesLin a rowAxes pl.rst k = some r ∧ axesLin a pl.colAxes pl.cst k = some c ∧
      unfoldLinP dbg a rowAxes pl k = .ok (r, c)) ∨
    (unfoldLinP dbg a rowAxes pl k = .error .panic ∧ UnfoldBad dbg a rowAxes pl k) := by
  have b1 := entry_base_le (nd := a.shape.length) hk
  unfold unfoldLinP
  rw [mulUsize_eq (by omega), ok_bind]
  rcases axesLinP_spec (dbg := dbg) hI hU hp.rst hp.row hk with h | ⟨h, h1, h2⟩
  swap
  · right; rw [h, err_bind]; exact ⟨rfl, .inr (.inr ⟨h1, .inl h2⟩)⟩
  rw [h]
  cases hr : axesLin a rowAxes pl.rst k with
  | none => right; exact ⟨rfl, .inl hr⟩
  | some r =>
  rw [show expectP (some r) = .ok r from rfl, ok_bind]
  rcases axesLinP_spec (dbg := dbg) hI hU hp.cst hp.col hk with h | ⟨h, h1, h2⟩
  swap
  · right; rw [h, err_bind]; exact ⟨rfl, .inr (.inr ⟨h1, .inl h2⟩)⟩
  rw [h]
  cases hc : axesLin a pl.colAxes pl.cst k with
  | none => right; exact ⟨rfl, .inr (.inl hc)⟩
  | some c => left; exact ⟨r, c, rfl, rfl, rfl⟩

/-- The stored row (column) index of entry `k`. -/
def axesIdx (a : CooNd V) (axes st : List Nat) (k : Nat) : Int := usizeToI64 ((axesLin a axes st k).getD 0)

theorem unfoldItemP_spec {dbg : Bool} {a : CooNd V} {rowAxes : List Nat} {pl : UnfoldPlan}
    (hI : a.data.length * a.shape.length ≤ a.indices.length) (hU : a.data.length * a.shape.length ≤ usizeMax)
    (hp : PlanOk a rowAxes pl) {k : Nat} (hk : k < a.data.length) :
    (unfoldItemP dbg a rowAxes pl k =
        .ok ((k, axesIdx a rowAxes pl.rst k), (k, axesIdx a pl.colAxes pl.cst k)) ∧
      (∀ st : List Int × List Int, st.1.length = a.data.length → st.2.length = a.data.length →
        unfoldStepP dbg a rowAxes pl st k =
          .ok (st.1.set k (axesIdx a rowAxes pl.rst k), st.2.set k (axesIdx a pl.colAxes pl.cst k))) ∧
      axesLin a rowAxes pl.rst k ≠ none ∧ axesLin a pl.colAxes pl.cst k ≠ none) ∨
    (unfoldItemP dbg a rowAxes pl k = .error .panic ∧
      (∀ st : List Int × List Int, st.1.length = a.data.length → st.2.length = a.data.length →
        unfoldStepP dbg a rowAxes pl st k = .error .panic) ∧ UnfoldBad dbg a rowAxes pl k) := by
  rcases unfoldLinP_spec (dbg := dbg) hI hU hp hk with ⟨r, c, hr, hc, h⟩ | ⟨h, hb⟩
  swap
  · right
    refine ⟨?_, fun st _ _ => ?_, hb⟩
    · unfold unfoldItemP; rw [h]; rfl
    · unfold unfoldStepP; rw [h]; rfl
  have er : axesIdx a rowAxes pl.rst k = usizeToI64 r := by unfold axesIdx; rw [hr]; rfl
  have ec : axesIdx a pl.colAxes pl.cst k = usizeToI64 c := by unfold axesIdx; rw [hc]; rfl
  rcases usizeToI64P_cases (dbg := dbg) (axesLin_le hr) with h1 | ⟨h1, h2, h3⟩
  swap
  · right
    refine ⟨?_, fun st l1 l2 => ?_, .inr (.inr ⟨h2, .inr (.inl ⟨r, hr, usizeToI64_neg (axesLin_le hr) h3⟩)⟩)⟩
    · unfold unfoldItemP; rw [h, ok_bind]; simp only []; rw [h1]; rfl
    · unfold unfoldStepP; rw [h, ok_bind]; simp only []; rw [h1]; rfl
  rcases usizeToI64P_cases (dbg := dbg) (axesLin_le hc) with g1 | ⟨g1, g2, g3⟩
  swap
  · right
    refine ⟨?_, fun st l1 l2 => ?_, .inr (.inr ⟨g2, .inr (.inr ⟨c, hc, usizeToI64_neg (axesLin_le hc) g3⟩)⟩)⟩
    · unfold unfoldItemP
      rw [h, ok_bind]; simp only []
      rw [h1, ok_bind, MutPtr.put_eq (by simpa using hk), ok_bind, g1]; rfl
    · unfold unfoldStepP
      rw [h, ok_bind]; simp only []
      rw [h1, ok_bind, setIdxP_eq (by omega), ok_bind, g1]; rfl
  left
  refine ⟨?_, fun st l1 l2 => ?_, by rw [hr]; simp, by rw [hc]; simp⟩
  · unfold unfoldItemP
    rw [h, ok_bind]; simp only []
    rw [h1, ok_bind, MutPtr.put_eq (by simpa using hk), ok_bind, g1, ok_bind, MutPtr.put_eq (by simpa using hk), ok_bind, er, ec]
    simp only [Nat.zero_add]
    rfl
  · unfold unfoldStepP
    rw [h, ok_bind]; simp only []
    rw [h1, ok_bind, setIdxP_eq (by omega), ok_bind, g1, ok_bind, setIdxP_eq (by omega), ok_bind, er, ec]
    rfl

/-- The sequential loop over any list of entries. -/
theorem unfoldFold_spec {dbg : Bool} {a : CooNd V} {rowAxes : List Nat} {pl : UnfoldPlan}
    (hI : a.data.length * a.shape.length ≤ a.indices.length) (hU : a.data.length * a.shape.length ≤ usizeMax)
    (hp : PlanOk a rowAxes pl) : ∀ (l : List Nat) (st : List Int × List Int), (∀ k ∈ l, k < a.data.length) →
    st.1.length = a.data.length → st.2.length = a.data.length →
    ((∀ k ∈ l, unfoldItemP dbg a rowAxes pl k =
        .ok ((k, axesIdx a rowAxes pl.rst k), (k, axesIdx a pl.colAxes pl.cst k))) ∧
      l.foldlM (unfoldStepP dbg a rowAxes pl) st =
        .ok (applyWrites st.1 (l.map fun k => (k, axesIdx a rowAxes pl.rst k)),
          applyWrites st.2 (l.map fun k => (k, axesIdx a pl.colAxes pl.cst k)))) ∨
    ((∃ k ∈ l, unfoldItemP dbg a rowAxes pl k = .error .panic) ∧
      l.foldlM (unfoldStepP dbg a rowAxes pl) st = .error .panic)
  | [], st, _, _, _ => .inl ⟨by simp, rfl⟩
  | k :: l, st, hk, h1, h2 => by
    rw [List.foldlM_cons]
    rcases unfoldItemP_spec (dbg := dbg) hI hU hp (hk k (by simp)) with ⟨e1, e2, _⟩ | ⟨e1, e2, _⟩
    · rw [e2 st h1 h2, ok_bind]
      rcases unfoldFold_spec (dbg := dbg) hI hU hp l (st.1.set k (axesIdx a rowAxes pl.rst k), st.2.set k (axesIdx a pl.colAxes pl.cst k))
        (fun k' h' => hk k' (by simp [h'])) (by simpa using h1) (by simpa using h2) with ⟨h, h'⟩ | ⟨⟨k', hk', h⟩, h'⟩
      · left
        refine ⟨?_, by rw [h']; rfl⟩
        intro k' hk'
        rcases List.mem_cons.1 hk' with rfl | hk'
        · exact e1
        · exact h k' hk'
      · exact .inr ⟨⟨k', by simp [hk'], h⟩, h'⟩
    · right
      refine ⟨⟨k, by simp, e1⟩, ?_⟩
      rw [e2 st h1 h2]; rfl

theorem flatMap_one {α β : Type} (f : α → β) (l : List α) : l.flatMap (fun k => [f k]) = l.map f := by
  induction l with
  | nil => rfl
  | cons x l ih => rw [List.flatMap_cons, ih]; rfl

theorem flatten_one {α β : Type} (f : α → β) (l : List α) : (l.map fun k => [f k]).flatten = l.map f := by
  induction l with
  | nil => rfl
  | cons x l ih => rw [List.map_cons, List.flatten_cons, ih]; rfl

theorem range_writes {α : Type} (n : Nat) (f : Nat → α) :
    ((List.range n).map fun k => (k, f k)) = lineWrites 0 ((List.range n).map f) := by
  have := (flatMap_blocks (w := 1) (n := n) (blocks := fun k => [f k]) (fun _ _ => rfl)).1
  rw [flatMap_one] at this
  rw [← this]
  simp only [lineWrites, Nat.mul_one]
  rw [flatten_one]

theorem unfoldLoop_iff {dbg : Bool} {a : CooNd V} {rowAxes : List Nat} {pl : UnfoldPlan}
    (hI : a.data.length * a.shape.length ≤ a.indices.length) (hU : a.data.length * a.shape.length ≤ usizeMax)
    (hp : PlanOk a rowAxes pl) (hz : 8 * (a.data.length : Int) ≤ i64Max) (out : Except Fault (Coo V)) :
    UnfoldLoopPtr dbg a rowAxes pl out ↔
    ((∃ k ∈ List.range a.data.length, unfoldItemP dbg a rowAxes pl k = .error .panic) ∧ out = .error .panic) ∨
    ((∀ k ∈ List.range a.data.length, unfoldItemP dbg a rowAxes pl k =
        .ok ((k, axesIdx a rowAxes pl.rst k), (k, axesIdx a pl.colAxes pl.cst k))) ∧
      out = .ok ⟨pl.nrows, pl.ncols, (List.range a.data.length).map (axesIdx a rowAxes pl.rst),
        (List.range a.data.length).map (axesIdx a pl.colAxes pl.cst), a.data⟩) := by
  unfold UnfoldLoopPtr
  rw [zerosP_ok hz]
  simp only []
  by_cases hsm : a.data.length < smallNnzLimit
  · rw [if_pos hsm]
    rcases unfoldFold_spec (dbg := dbg) hI hU hp (List.range a.data.length)
      (List.replicate a.data.length 0, List.replicate a.data.length 0) (fun k hk => List.mem_range.1 hk) (by simp) (by simp)
      with ⟨h, h'⟩ | ⟨h, h'⟩
    · rw [h']
      simp only [range_writes]
      rw [applyWrites_scatter (List.Perm.refl _) (by simp), applyWrites_scatter (List.Perm.refl _) (by simp)]
      constructor
      · intro ho; exact .inr ⟨h, ho⟩
      · rintro (⟨⟨k, hk, hb⟩, _⟩ | ⟨_, ho⟩)
        · rw [h k hk] at hb; cases hb
        · exact ho
    · rw [h']
      constructor
      · intro ho; exact .inl ⟨h, ho⟩
      · rintro (⟨_, ho⟩ | ⟨hg, _⟩)
        · exact ho
        · obtain ⟨k, hk, hb⟩ := h
          rw [hg k hk] at hb; cases hb
  · rw [if_neg hsm]
    have hc := parEach_cases (items := List.range a.data.length) (f := unfoldItemP dbg a rowAxes pl)
      (g := fun k => ((k, axesIdx a rowAxes pl.rst k), (k, axesIdx a pl.colAxes pl.cst k)))
      (fun i hi => by
        rcases unfoldItemP_spec (dbg := dbg) hI hU hp (List.mem_range.1 hi) with h | h
        · exact .inl h.1
        · exact .inr h.1)
    have hs := fun f : Nat → Int => parStore_blocks (w := 1) (n := a.data.length) (buf := List.replicate a.data.length (0 : Int))
      (blocks := fun k => [f k]) (fun _ _ => rfl) (by simp)
    simp only [lineWrites, Nat.mul_one, flatMap_one] at hs
    have e1 : ((List.range a.data.length).map fun k => ((k, axesIdx a rowAxes pl.rst k), (k, axesIdx a pl.colAxes pl.cst k))).map
        (fun e => [e.1]) = (List.range a.data.length).map fun k => [(k, axesIdx a rowAxes pl.rst k)] := by
      rw [List.map_map]; rfl
    have e2 : ((List.range a.data.length).map fun k => ((k, axesIdx a rowAxes pl.rst k), (k, axesIdx a pl.colAxes pl.cst k))).map
        (fun e => [e.2]) = (List.range a.data.length).map fun k => [(k, axesIdx a pl.colAxes pl.cst k)] := by
      rw [List.map_map]; rfl
    constructor
    · rintro ⟨oe, h1, h2⟩
      rcases (hc oe).1 h1 with ⟨hb, rfl⟩ | ⟨hb, rfl⟩
      · exact .inl ⟨hb, h2⟩
      · obtain ⟨o1, o2, h3, h4, rfl⟩ := h2
        rw [e1] at h3
        rw [e2] at h4
        rw [(hs _ o1).1 h3, (hs _ o2).1 h4]
        exact .inr ⟨hb, rfl⟩
    · rintro (⟨hb, rfl⟩ | ⟨hb, rfl⟩)
      · exact ⟨_, (hc _).2 (.inl ⟨hb, rfl⟩), rfl⟩
      · refine ⟨_, (hc _).2 (.inr ⟨hb, rfl⟩), .ok ((List.range a.data.length).map (axesIdx a rowAxes pl.rst)),
          .ok ((List.range a.data.length).map (axesIdx a pl.colAxes pl.cst)), ?_, ?_, rfl⟩
        · rw [e1]; exact (hs _ _).2 rfl
        · rw [e2]; exact (hs _ _).2 rfl

theorem index_mapM {α : Type} [Inhabited α] {v : List α} (z : α) {l : List Nat} (h : ∀ d ∈ l, d < v.length) :
    l.mapM (index v) = .ok (l.map fun d => v.getD d z) :=
  mapM_exceptOk l fun d hd => by
    rw [index_eq (h d hd)]
    simp [List.getElem?_eq_getElem (h d hd)]

/-- A panic that the list-level model does not have. -/
def UnfoldExtra (dbg : Bool) (a : CooNd V) (r : Coo V) : Prop :=
  i64Max < 8 * (a.data.length : Int) ∨
  (dbg = true ∧ ((∃ i ∈ a.indices, i < 0) ∨ (∃ i ∈ r.row, i < 0) ∨ ∃ i ∈ r.col, i < 0))

/-- One side of the list-level unfolding. -/
theorem ndOps_axes {a : CooNd V} {axes st : List Nat} :
    (ndOps a (axes.zip st) id = none ∧ ∃ k, k < a.data.length ∧ axesLin a axes st k = none) ∨
    ((∀ k, k < a.data.length → axesLin a axes st k ≠ none) ∧ ∃ ops, ndOps a (axes.zip st) id = some ops ∧
      ops.map (fun e => usizeToI64 e.1) = (List.range a.data.length).map (axesIdx a axes st)) := by
  rw [ndOps_range]
  rcases mapM_opt_cases (f := fun k => linAxes a.indices (k * a.shape.length) (axes.zip st) 0)
    (List.range a.data.length) with ⟨h, k, hk, hn⟩ | ⟨ys, h, hy⟩
  · left
    rw [h]
    exact ⟨rfl, k, List.mem_range.1 hk, hn⟩
  · right
    have hl : ys.length = a.data.length := by
      have := congrArg List.length hy
      simpa using this.symm
    have hk : ∀ k (hk : k < a.data.length), axesLin a axes st k = some ys[k] := by
      intro k hk
      have := congrArg (fun l => l[k]?) hy
      simp only [List.getElem?_map, List.getElem?_range hk, Option.map_some] at this
      rw [List.getElem?_eq_getElem (by omega)] at this
      simpa [axesLin] using this
    refine ⟨fun k hk' => by rw [hk k hk']; simp, ys.zip a.data, by rw [h]; rfl, ?_⟩
    have e : (ys.zip a.data).map (fun e => usizeToI64 e.1) = ys.map usizeToI64 := by
      have : ys = (ys.zip a.data).map Prod.fst := by
        rw [List.map_fst_zip (by omega)]
      conv => rhs; rw [this]
      rw [List.map_map]; rfl
    rw [e]
    apply List.ext_getElem
    · simp [hl]
    · intro i h1 h2
      simp only [List.getElem_map, List.getElem_range]
      unfold axesIdx
      rw [hk i (by simpa using h2)]
      rfl

/-- Every run of the unfolding has the same outcome: the result of the list-level model, or a
panic. -/
theorem unfoldPtr_core {dbg : Bool} {a : CooNd V} {rowAxes : List Nat}
    (hI : a.data.length * a.shape.length ≤ a.indices.length) (hU : a.data.length * a.shape.length ≤ usizeMax) :
    (axesToCoo a rowAxes = none ∧ ∀ out, UnfoldPtr dbg a rowAxes out ↔ out = .error .panic) ∨
    ∃ r, axesToCoo a rowAxes = some r ∧ ((∀ out, UnfoldPtr dbg a rowAxes out ↔ out = .ok r) ∨
      ((∀ out, UnfoldPtr dbg a rowAxes out ↔ out = .error .panic) ∧ UnfoldExtra dbg a r)) := by
  unfold axesToCoo
  simp only []
  cases h1 : checkAxes a.shape.length rowAxes (List.replicate a.shape.length false) with
  | none =>
    left
    refine ⟨rfl, fun out => ?_⟩
    unfold UnfoldPtr unfoldPlanP; rw [h1]; rfl
  | some used =>
  obtain ⟨hrow, _, _⟩ := (checkAxes_iff a.shape.length rowAxes).1 used h1
  simp only [Option.bind_some]
  generalize hca : (List.range a.shape.length).filter (fun d => !(used.getD d false)) = colAxes
  have hcol : ∀ d ∈ colAxes, d < a.shape.length := by
    intro d hd
    rw [← hca] at hd
    exact List.mem_range.1 (List.mem_filter.1 hd).1
  have hrs := index_mapM (v := a.shape) 0 hrow
  have hcs := index_mapM (v := a.shape) 0 hcol
  have hplan : unfoldPlanP a rowAxes =
      (expectP (productChecked (rowAxes.map fun d => a.shape.getD d 0)) >>= fun nrows =>
        expectP (productChecked (colAxes.map fun d => a.shape.getD d 0)) >>= fun ncols =>
        expectP (strides? (rowAxes.map fun d => a.shape.getD d 0)) >>= fun rst =>
        expectP (strides? (colAxes.map fun d => a.shape.getD d 0)) >>= fun cst =>
        (.ok ⟨nrows, ncols, colAxes, rst, cst⟩ : Except Fault UnfoldPlan)) := by
    unfold unfoldPlanP
    rw [h1]
    simp only [expectP, ok_bind]
    rw [hca, hrs, ok_bind, hcs, ok_bind]
    rfl
  cases h2 : productChecked (rowAxes.map fun d => a.shape.getD d 0) with
  | none =>
    left
    refine ⟨rfl, fun out => ?_⟩
    unfold UnfoldPtr; rw [hplan, h2]; rfl
  | some nrows =>
  cases h3 : productChecked (colAxes.map fun d => a.shape.getD d 0) with
  | none =>
    left
    refine ⟨rfl, fun out => ?_⟩
    unfold UnfoldPtr; rw [hplan, h2, h3]; rfl
  | some ncols =>
  cases h4 : strides? (rowAxes.map fun d => a.shape.getD d 0) with
  | none =>
    left
    refine ⟨rfl, fun out => ?_⟩
    unfold UnfoldPtr; rw [hplan, h2, h3, h4]; rfl
  | some rst =>
  cases h5 : strides? (colAxes.map fun d => a.shape.getD d 0) with
  | none =>
    left
    refine ⟨rfl, fun out => ?_⟩
    unfold UnfoldPtr; rw [hplan, h2, h3, h4, h5]; rfl
  | some cst =>
  rw [h2, h3, h4, h5] at hplan
  simp only [expectP, ok_bind] at hplan
  simp only [Option.bind_some]
  have hstep : ∀ out, UnfoldPtr dbg a rowAxes out ↔
      (if a.data.length = 0 then out = .ok ⟨nrows, ncols, [], [], []⟩
       else UnfoldLoopPtr dbg a rowAxes ⟨nrows, ncols, colAxes, rst, cst⟩ out) := by
    intro out
    unfold UnfoldPtr
    rw [hplan]
  by_cases h0 : a.data.length = 0
  · right
    refine ⟨⟨nrows, ncols, [], [], []⟩, if_pos h0, .inl fun out => ?_⟩
    rw [hstep out, if_pos h0]
  simp only [if_neg h0] at hstep ⊢
  have hp : PlanOk a rowAxes ⟨nrows, ncols, colAxes, rst, cst⟩ :=
    ⟨by rw [strides?_len h4]; simp, by rw [strides?_len h5]; simp, hrow, hcol⟩
  have hlist : ((∃ k, k < a.data.length ∧ (axesLin a rowAxes rst k = none ∨ axesLin a colAxes cst k = none)) ∧
      ((ndOps a (rowAxes.zip rst) id).bind fun rs => (ndOps a (colAxes.zip cst) id).bind fun cs =>
        some (⟨nrows, ncols, rs.map fun e => usizeToI64 e.1, cs.map fun e => usizeToI64 e.1, a.data⟩ : Coo V)) = none) ∨
      ((∀ k, k < a.data.length → axesLin a rowAxes rst k ≠ none ∧ axesLin a colAxes cst k ≠ none) ∧
      ((ndOps a (rowAxes.zip rst) id).bind fun rs => (ndOps a (colAxes.zip cst) id).bind fun cs =>
        some (⟨nrows, ncols, rs.map fun e => usizeToI64 e.1, cs.map fun e => usizeToI64 e.1, a.data⟩ : Coo V)) =
        some ⟨nrows, ncols, (List.range a.data.length).map (axesIdx a rowAxes rst),
          (List.range a.data.length).map (axesIdx a colAxes cst), a.data⟩) := by
    rcases ndOps_axes (a := a) (axes := rowAxes) (st := rst) with ⟨e, k, hk, hn⟩ | ⟨hr, ops, e, e'⟩
    · left; rw [e]; exact ⟨⟨k, hk, .inl hn⟩, rfl⟩
    rcases ndOps_axes (a := a) (axes := colAxes) (st := cst) with ⟨g, k, hk, hn⟩ | ⟨hr', ops', g, g'⟩
    · left; rw [e, g]; exact ⟨⟨k, hk, .inr hn⟩, rfl⟩
    right
    refine ⟨fun k hk => ⟨hr k hk, hr' k hk⟩, ?_⟩
    rw [e, g]
    simp only [Option.bind_some]
    rw [e', g']
  by_cases hz : 8 * (a.data.length : Int) ≤ i64Max
  swap
  · have hall : ∀ out, UnfoldPtr dbg a rowAxes out ↔ out = .error .panic := by
      intro out
      rw [hstep out]
      unfold UnfoldLoopPtr zerosP
      rw [if_neg hz]
    rcases hlist with ⟨_, h⟩ | ⟨_, h⟩
    · exact .inl ⟨h, hall⟩
    · exact .inr ⟨_, h, .inr ⟨hall, .inl (by omega)⟩⟩
  have hloop := fun out => (hstep out).trans (unfoldLoop_iff (dbg := dbg) hI hU hp hz out)
  have hitem : ∀ k, k < a.data.length → _ := fun k hk => unfoldItemP_spec (dbg := dbg) hI hU hp hk
  by_cases hbad : ∃ k ∈ List.range a.data.length,
      unfoldItemP dbg a rowAxes ⟨nrows, ncols, colAxes, rst, cst⟩ k = .error .panic
  · have hall : ∀ out, UnfoldPtr dbg a rowAxes out ↔ out = .error .panic := by
      intro out
      rw [hloop out]
      constructor
      · rintro (⟨_, h⟩ | ⟨h, _⟩)
        · exact h
        · obtain ⟨k, hk, hb⟩ := hbad
          rw [h k hk] at hb; cases hb
      · intro h; exact .inl ⟨hbad, h⟩
    rcases hlist with ⟨_, h⟩ | ⟨hok, h⟩
    · exact .inl ⟨h, hall⟩
    · refine .inr ⟨_, h, .inr ⟨hall, .inr ?_⟩⟩
      obtain ⟨k, hk, hb⟩ := hbad
      have hkl := List.mem_range.1 hk
      rcases hitem k hkl with ⟨h', _⟩ | ⟨_, _, h'⟩
      · rw [h'] at hb; cases hb
      rcases h' with h' | h' | ⟨hd, h' | ⟨r, hr, hneg⟩ | ⟨c, hc, hneg⟩⟩
      · exact absurd h' (hok k hkl).1
      · exact absurd h' (hok k hkl).2
      · exact ⟨hd, .inl h'⟩
      · refine ⟨hd, .inr (.inl ⟨axesIdx a rowAxes rst k, List.mem_map_of_mem hk, ?_⟩)⟩
        unfold axesIdx
        rw [show axesLin a rowAxes rst k = some r from hr]
        exact hneg
      · refine ⟨hd, .inr (.inr ⟨axesIdx a colAxes cst k, List.mem_map_of_mem hk, ?_⟩)⟩
        unfold axesIdx
        rw [show axesLin a colAxes cst k = some c from hc]
        exact hneg
  · have hgood := fun (k : Nat) (hk : k < a.data.length) =>
      (hitem k hk).resolve_right fun h => hbad ⟨k, List.mem_range.2 hk, h.1⟩
    rcases hlist with ⟨⟨k, hk, h⟩, _⟩ | ⟨_, h⟩
    · rcases h with h | h
      · exact absurd h (hgood k hk).2.2.1
      · exact absurd h (hgood k hk).2.2.2
    · refine .inr ⟨_, h, .inl ?_⟩
      intro out
      rw [hloop out]
      constructor
      · rintro (⟨h, _⟩ | ⟨_, h⟩)
        · exact absurd h hbad
        · exact h
      · intro h; exact .inr ⟨fun k hk => (hgood k (List.mem_range.1 hk)).1, h⟩

/-! ### the wrapped buffer size -/

/-- Returns, or has undefined behaviour; never panics. -/
def NoPanic {α : Type} (o : Except Fault α) : Prop := o = .error .ub ∨ ∃ x, o = .ok x

theorem NoPanic.ok {α : Type} {o : Except Fault α} {x : α} (h : o = .ok x) : NoPanic o := .inr ⟨x, h⟩

theorem NoPanic.bind {α β : Type} {o : Except Fault α} {f : α → Except Fault β} (h : NoPanic o)
    (hf : ∀ x, o = .ok x → NoPanic (f x)) : NoPanic (o >>= f) := by
  rcases h with h | ⟨x, h⟩
  · rw [h]; exact .inl rfl
  · rw [h]; exact hf x h

/-- A loop none of whose steps panics and one of whose steps always faults. -/
theorem NoPanic.foldlM_ub {σ α : Type} {f : σ → α → Except Fault σ} :
    ∀ (l : List α), (∀ x ∈ l, ∀ s, NoPanic (f s x)) → ∀ s,
    NoPanic (l.foldlM f s) ∧ ((∃ x ∈ l, ∀ s, f s x = .error .ub) → l.foldlM f s = .error .ub)
  | [], _, s => ⟨.ok rfl, by rintro ⟨x, hx, _⟩; cases hx⟩
  | x :: l, h, s => by
    rw [List.foldlM_cons]
    rcases h x (by simp) s with h1 | ⟨s', h1⟩
    · rw [h1]; exact ⟨.inl rfl, fun _ => rfl⟩
    · rw [h1, ok_bind]
      obtain ⟨g1, g2⟩ := NoPanic.foldlM_ub l (fun y hy => h y (by simp [hy])) s'
      refine ⟨g1, ?_⟩
      rintro ⟨y, hy, hub⟩
      rcases List.mem_cons.1 hy with rfl | hy
      · rw [hub s] at h1; cases h1
      · exact g2 ⟨y, hy, hub⟩

theorem mulUsize_rel (a b : Nat) : ∃ x, mulUsize false a b = .ok x := by
  unfold mulUsize
  split
  · exact ⟨_, rfl⟩
  · exact ⟨_, rfl⟩

theorem addUsize_rel (a b : Nat) : ∃ x, addUsize false a b = .ok x := by
  unfold addUsize
  split
  · exact ⟨_, rfl⟩
  · exact ⟨_, rfl⟩

theorem subUsize_rel (a b : Nat) : ∃ x, subUsize false a b = .ok x := by
  unfold subUsize
  split
  · exact ⟨_, rfl⟩
  · exact ⟨_, rfl⟩

theorem delinStepP_noPanic {ns : List Nat} {cap base d : Nat} (hd : d < ns.length) (st : DelinSt) :
    NoPanic (delinStepP false ns cap base st d) := by
  unfold delinStepP
  refine NoPanic.bind (.ok (index_eq hd)) fun s _ => ?_
  refine NoPanic.bind (.inr (mulUsize_rel _ _)) fun q _ => ?_
  refine NoPanic.bind (.inr (subUsize_rel _ _)) fun rem _ => ?_
  refine NoPanic.bind (.inr (addUsize_rel _ _)) fun p _ => ?_
  refine NoPanic.bind ?_ fun o _ => ?_
  · unfold MutPtr.add
    split
    · exact .ok rfl
    · exact .inl rfl
  refine NoPanic.bind (.ok (show usizeToI64P false _ = .ok _ from rfl)) fun x _ => ?_
  refine NoPanic.bind ?_ fun w _ => .ok rfl
  unfold MutPtr.write
  split
  · exact .ok rfl
  · exact .inl rfl

theorem delinStepP_past {ns : List Nat} {cap base d : Nat} (hd : d < ns.length) (hb : base + d = cap) (hc : cap ≤ usizeMax)
    (st : DelinSt) : delinStepP false ns cap base st d = .error .ub := by
  unfold delinStepP
  rw [index_eq hd, ok_bind]
  obtain ⟨q, hq⟩ := mulUsize_rel (if ns[d] = 0 then 0 else st.1 / ns[d]) ns[d]
  obtain ⟨r, hr⟩ := subUsize_rel st.1 q
  simp only [hq, ok_bind, hr]
  rw [addUsize_eq (by omega), ok_bind, MutPtr.add_zero_eq (by omega), ok_bind]
  unfold usizeToI64P
  rw [if_neg (by simp), ok_bind]
  unfold MutPtr.write
  rw [if_neg (by simp only []; omega)]
  rfl

theorem reshapeItemP_noPanic {a : CooNd V} {os ns : List Nat} {cap k : Nat}
    (hI : a.data.length * a.shape.length ≤ a.indices.length) (hU : a.data.length * a.shape.length ≤ usizeMax)
    (hos : os.length = a.shape.length) (hk : k < a.data.length) (hlin : entryLin a os k ≠ none) :
    NoPanic (reshapeItemP false a os ns ns.length cap k) ∧
    (cap ≤ usizeMax → k = cap / ns.length → 0 < ns.length →
      reshapeItemP false a os ns ns.length cap k = .error .ub) := by
  have b1 := entry_base_le (nd := a.shape.length) hk
  cases hl : entryLin a os k with
  | none => exact absurd hl hlin
  | some lin =>
  have hlp : linP false a.indices (k * a.shape.length) (index os) (List.range a.shape.length) = .ok lin := by
    rcases reshapeLin_spec (dbg := false) hI hU hos hk with h | ⟨_, h, _⟩
    · rw [h, hl]; rfl
    · cases h
  obtain ⟨bn, hbn⟩ := mulUsize_rel k ns.length
  have e : reshapeItemP false a os ns ns.length cap k =
      ((List.range ns.length).foldlM (delinStepP false ns cap bn) (lin, []) >>= fun st => (.ok st.2 : Except Fault _)) := by
    unfold reshapeItemP
    rw [mulUsize_eq (by omega), ok_bind, hlp, ok_bind, hbn, ok_bind]
    rfl
  obtain ⟨g1, g2⟩ := NoPanic.foldlM_ub (f := delinStepP false ns cap bn) (List.range ns.length)
    (fun d hd st => delinStepP_noPanic (List.mem_range.1 hd) st) (lin, [])
  rw [e]
  refine ⟨g1.bind fun x _ => .ok rfl, fun hc hkc hpos => ?_⟩
  rw [g2 ⟨cap % ns.length, List.mem_range.2 (Nat.mod_lt _ hpos), fun st =>
    delinStepP_past (Nat.mod_lt _ hpos) ?_ hc st⟩]
  · rfl
  · have h1 := Nat.div_add_mod cap ns.length
    have h2 : k * ns.length = ns.length * (cap / ns.length) := by rw [hkc, Nat.mul_comm]
    rw [mulUsize_eq (by omega)] at hbn
    cases hbn
    omega

end Lacuna
