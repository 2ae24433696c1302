import Verif.Lemmas.PyProg
import Verif.Props.PtrNd
import Verif.Props.PtrNdAcc
import Verif.Props.PtrBroadcast
import Verif.Props.Broadcast
import Verif.Props.NdShape
import Verif.Props.Unfold
import Verif.Props.Convert
/-
Lemmas for the programs of Model/PyProg: the N-D operations, and the value of a program at list
level.
-/
set_option linter.unusedSectionVars false

namespace Lacuna
variable {V : Type}

/-! ### broadcasting of shapes -/

theorem bcastRev_sound {s t u : List Nat} (hs : ∀ d ∈ s, 0 < d) (ht : ∀ d ∈ t, 0 < d) (h : bcastRev s t = some u) :
    u.length = max s.length t.length ∧
    (∀ k, s.getD k 1 = t.getD k 1 ∨ s.getD k 1 = 1 ∨ t.getD k 1 = 1) ∧
    ∀ k, u.getD k 1 = max (s.getD k 1) (t.getD k 1) := by
  have pos : ∀ (l : List Nat), (∀ d ∈ l, 0 < d) → ∀ k, 1 ≤ l.getD k 1 := by
    intro l hl k
    rcases Nat.lt_or_ge k l.length with hk | hk
    · rw [List.getD_eq_getElem _ _ hk]; exact hl _ (List.getElem_mem hk)
    · rw [List.getD_eq_default _ _ hk]
  induction s generalizing t u with
  | nil =>
    unfold bcastRev at h
    cases h
    refine ⟨by simp, fun k => .inr (.inl (by simp)), fun k => ?_⟩
    have := pos _ ht k
    rw [List.getD_nil]; omega
  | cons x s ih =>
    cases t with
    | nil =>
      unfold bcastRev at h
      cases h
      refine ⟨by simp, fun k => .inr (.inr (by simp)), fun k => ?_⟩
      have := pos _ hs k
      rw [List.getD_nil]; omega
    | cons y t =>
      have hx := hs x (by simp)
      have hy := ht y (by simp)
      have key : ∀ z, z = max x y → (x = y ∨ x = 1 ∨ y = 1) → (bcastRev s t).map (z :: ·) = some u →
          u.length = max (x :: s).length (y :: t).length ∧
          (∀ k, (x :: s).getD k 1 = (y :: t).getD k 1 ∨ (x :: s).getD k 1 = 1 ∨ (y :: t).getD k 1 = 1) ∧
          ∀ k, u.getD k 1 = max ((x :: s).getD k 1) ((y :: t).getD k 1) := by
        intro z hz hc h
        obtain ⟨u', h1, rfl⟩ := Option.map_eq_some_iff.1 h
        obtain ⟨e1, e2, e3⟩ := ih (fun d hd => hs d (by simp [hd])) (fun d hd => ht d (by simp [hd])) h1
        refine ⟨by simp only [List.length_cons]; omega, fun k => ?_, fun k => ?_⟩
        · cases k with
          | zero => simpa using hc
          | succ k => simpa using e2 k
        · cases k with
          | zero => simpa using hz
          | succ k => simpa using e3 k
      rw [bcastRev] at h
      split_ifs at h with h1 h2
      · exact key x (by omega) (by omega) h
      · exact key y (by omega) (by omega) h

theorem bcastRev_complete {s t : List Nat} (h : ∀ k, s.getD k 1 = t.getD k 1 ∨ s.getD k 1 = 1 ∨ t.getD k 1 = 1) :
    bcastRev s t ≠ none := by
  induction s generalizing t with
  | nil => simp [bcastRev]
  | cons x s ih =>
    cases t with
    | nil => simp [bcastRev]
    | cons y t =>
      have h0 := h 0
      have hr := ih (t := t) fun k => by simpa using h (k + 1)
      simp only [List.getD_cons_zero] at h0
      rw [bcastRev]
      split_ifs with h1 h2
      · simpa using hr
      · simpa using hr
      · omega

theorem bcastTo_some {s t u : List Nat} (hs : ∀ d ∈ s, 0 < d) (ht : ∀ d ∈ t, 0 < d) (h : bcastTo s t = some u) :
    IsBroadcast s t u := by
  obtain ⟨u', h1, rfl⟩ := Option.map_eq_some_iff.1 h
  obtain ⟨e1, e2, e3⟩ := bcastRev_sound (fun d hd => hs d (List.mem_reverse.1 hd)) (fun d hd => ht d (List.mem_reverse.1 hd)) h1
  refine ⟨by simpa using e1, fun k => e2 k, fun k => ?_⟩
  have := e3 k
  unfold dimFromRight
  rwa [List.reverse_reverse]

theorem bcastTo_none {s t : List Nat} (h : bcastTo s t = none) : ∀ out, ¬ IsBroadcast s t out := by
  intro out hb
  exact bcastRev_complete (s := s.reverse) (t := t.reverse) (fun k => hb.compat k) (Option.map_eq_none_iff.1 h)

/-! ### products of extents -/

theorem extents_prod_dvd {s axes : List Nat} (h : AxesOk s.length axes) : (extents s axes).prod ∣ s.prod := by
  have h1 : axes.Subperm (List.range s.length) := List.subperm_of_subset h.2 fun p hp => List.mem_range.2 (h.1 p hp)
  obtain ⟨l, hl, hsub⟩ := h1
  have h2 : (l.map fun d => s.getD d 0).Sublist ((List.range s.length).map fun d => s.getD d 0) := hsub.map _
  have e : (List.range s.length).map (fun d => s.getD d 0) = s := by
    apply List.ext_getElem
    · simp
    · intro i h1 h2; simp [h2]
  rw [e] at h2
  have h3 := h2.prod_dvd_prod
  have h4 : (l.map fun d => s.getD d 0).prod = (extents s axes).prod := (hl.map _).prod_eq
  rwa [h4] at h3

theorem restAxes_ok (n : Nat) (axes : List Nat) : AxesOk n (restAxes n axes) :=
  ⟨fun _ hp => List.mem_range.1 (List.mem_filter.1 hp).1, List.Nodup.filter _ List.nodup_range⟩

theorem extents_prod_le {s axes : List Nat} (h : AxesOk s.length axes) (hpos : 0 < s.prod) :
    0 < (extents s axes).prod ∧ (extents s axes).prod ≤ s.prod :=
  ⟨Nat.pos_of_dvd_of_pos (extents_prod_dvd h) hpos, Nat.le_of_dvd hpos (extents_prod_dvd h)⟩

theorem productChecked_pos {l : List Nat} (hpos : 0 < l.prod) (hle : l.prod ≤ usizeMax) : productChecked l = some l.prod := by
  have := productChecked_of_pos l 1 hpos (by omega)
  rwa [Nat.one_mul] at this

/-! ### sizes of N-D results -/

theorem reduceSum_length [Add V] {a r : CooNd V} {rest : List Nat} (hs : r.Sorted)
    (h : ∀ y v, (y, v) ∈ r.entries → total (a.entries.map fun e => (select rest e.1, e.2)) y = some v) :
    r.data.length ≤ a.data.length := by
  have hn : (r.entries.map Prod.fst).Nodup := List.Pairwise.imp (fun h => ne_of_lt h) hs
  have hsub : ∀ y ∈ r.entries.map Prod.fst, y ∈ a.entries.map fun e => select rest e.1 := by
    intro y hy
    obtain ⟨⟨y, v⟩, hm, rfl⟩ := List.mem_map.1 hy
    have ht := h y v hm
    unfold total at ht
    cases hf : (a.entries.map fun e => (select rest e.1, e.2)).filter fun e => e.1 == y with
    | nil => rw [hf] at ht; cases ht
    | cons e l =>
      have : e ∈ (a.entries.map fun e => (select rest e.1, e.2)).filter fun e => e.1 == y := by rw [hf]; simp
      obtain ⟨h1, h2⟩ := List.mem_filter.1 this
      obtain ⟨e', he', rfl⟩ := List.mem_map.1 h1
      exact List.mem_map.2 ⟨e', he', by simpa using h2⟩
  have := (List.subperm_of_subset hn hsub).length_le
  simpa [CooNd.entries_length] using this

section
variable [Zero V] [One V] [Add V] [Sub V] [Mul V] [Div V] [Neg V] [BEq V] [NatCast V] [HasFinite V]
  [HasFloor V] [HasPowf V] [HasAbs V] [HasLt V] [HasNan V]

/-! ### values -/

/-- The Python outcome of a list-level result. -/
def resObj (r : Except PyErr (SpVal V)) : PyRes (PyObj V) :=
  match r with
  | .ok v => .ret v.obj
  | .error e => .raises e

/-- A list-level result has the type (or exception) `t` and at most `b` stored entries. -/
def Meets (r : Except PyErr (SpVal V)) (t : Except PyErr Ty) (b : Nat) : Prop :=
  match t with
  | .ok τ => ∃ w, r = .ok w ∧ w.Valid ∧ w.ty = τ ∧ w.nnz ≤ b
  | .error x => r = .error x

/-- A call with outcomes `R` has exactly the outcome of the list-level result `r`, which is as
typed. -/
def Step (r : Except PyErr (SpVal V)) (t : Except PyErr Ty) (b : Nat) (R : PyRes (PyObj V) → Prop) : Prop :=
  Meets r t b ∧ ∀ out, R out ↔ out = resObj r

theorem Step.raise {x : PyErr} {b : Nat} {R : PyRes (PyObj V) → Prop} (h : ∀ out, R out ↔ out = .raises x) :
    Step (.error x) (.error x) b R := ⟨rfl, h⟩

theorem Step.ret {v : SpVal V} {τ : Ty} {b : Nat} {R : PyRes (PyObj V) → Prop} (hv : v.Valid) (ht : v.ty = τ)
    (hb : v.nnz ≤ b) (h : ∀ out, R out ↔ out = .ret v.obj) : Step (.ok v) (.ok τ) b R := ⟨⟨v, rfl, hv, ht, hb⟩, h⟩

/-- `x op alpha`. -/
def SpVal.scalar (op : BinOp) (alpha : V) (v : SpVal V) : Except PyErr (SpVal V) :=
  match op, v with
  | .add, _ => .error .notImplemented
  | .sub, _ => .error .notImplemented
  | .mul, .nd _ => .error .notImplemented
  | .mul, v => .ok (v.mapData (.mul alpha))
  | .div, .nd _ => .error .notImplemented
  | .div, v => if alpha == 0 then .error .zeroDivision else .ok (v.mapData (.mul (1 / alpha)))
  | .floordiv, v => if alpha == 0 then .error .zeroDivision else .ok (v.mapData (.floordiv alpha))
  | .rem, v => if alpha == 0 then .error .zeroDivision else .ok (v.mapData (.rem alpha))
  | .pow, v => .ok (v.mapData (.pow alpha))

theorem step_data (op : DataOp V) {v : SpVal V} (h : v.Good) : Step (.ok (v.mapData op)) (.ok v.ty) v.nnz (DataMethod op v.obj) :=
  .ret (v.mapData_valid op h.1) (v.mapData_ty op) (Nat.le_of_eq (v.mapData_nnz op)) (dataMethod_iff op h)

/-- `abs`, `negative`, `sign`. -/
def SpVal.un (op : UnOp) (v : SpVal V) : SpVal V :=
  v.mapData (match op with | .abs => .abs | .neg => .mul (-1) | .sign => .sign)

theorem step_un (op : UnOp) {v : SpVal V} (h : v.Good) : Step (.ok (v.un op)) (.ok v.ty) v.nnz (UnMethod op v.obj) := by
  cases op <;> exact step_data _ h

theorem step_scalar (op : BinOp) (alpha : V) {v : SpVal V} (h : v.Good) :
    Step (v.scalar op alpha) (v.ty.scalar op (alpha == 0)) v.nnz (fun out => ScalarMethod op v.obj alpha out) := by
  have hd := fun dop : DataOp V => step_data dop h
  cases op with
  | add => exact .raise fun out => Iff.rfl
  | sub => exact .raise fun out => Iff.rfl
  | mul => cases v with
    | mat f a => exact hd _
    | coo a => exact hd _
    | nd a => exact .raise fun out => Iff.rfl
  | pow => cases v <;> exact hd _
  | div => cases h0 : (alpha == 0) with
    | true => cases v <;> simp only [SpVal.scalar, Ty.scalar, SpVal.ty, ScalarMethod, PyObj.isNd, SpVal.obj, h0, if_true,
        Bool.false_eq_true, if_false] <;> exact .raise fun out => Iff.rfl
    | false =>
      cases v with
      | mat f a =>
        simp only [SpVal.scalar, Ty.scalar, SpVal.ty, ScalarMethod, PyObj.isNd, SpVal.obj, h0, Bool.false_eq_true, if_false]
        exact hd _
      | coo a =>
        simp only [SpVal.scalar, Ty.scalar, SpVal.ty, ScalarMethod, PyObj.isNd, SpVal.obj, h0, Bool.false_eq_true, if_false]
        exact hd _
      | nd a => exact .raise fun out => Iff.rfl
  | floordiv => cases h0 : (alpha == 0) with
    | true => cases v <;> simp only [SpVal.scalar, Ty.scalar, SpVal.ty, ScalarMethod, h0, if_true] <;>
        exact .raise fun out => Iff.rfl
    | false => cases v <;> simp only [SpVal.scalar, Ty.scalar, SpVal.ty, ScalarMethod, h0, Bool.false_eq_true, if_false] <;>
        exact hd _
  | rem => cases h0 : (alpha == 0) with
    | true => cases v <;> simp only [SpVal.scalar, Ty.scalar, SpVal.ty, ScalarMethod, h0, if_true] <;>
        exact .raise fun out => Iff.rfl
    | false => cases v <;> simp only [SpVal.scalar, Ty.scalar, SpVal.ty, ScalarMethod, h0, Bool.false_eq_true, if_false] <;>
        exact hd _

/-- `alpha op x`. -/
def SpVal.left (op : BinOp) (alpha : V) (v : SpVal V) : Except PyErr (SpVal V) :=
  match op, v with
  | .mul, .nd _ => .error .notImplemented
  | .mul, v => .ok (v.mapData (.mul alpha))
  | _, _ => .error .notImplemented

theorem step_left (op : BinOp) (alpha : V) {v : SpVal V} (h : v.Good) :
    Step (v.left op alpha) (v.ty.left op) v.nnz (fun out => ScalarLeft op alpha v.obj out) := by
  cases op with
  | mul => cases v with
    | mat f a => exact step_data _ h
    | coo a => exact step_data _ h
    | nd a => exact .raise fun out => Iff.rfl
  | _ => exact .raise fun out => Iff.rfl

/-- `x.T`. -/
def SpVal.TE (v : SpVal V) : Except PyErr (SpVal V) :=
  match v with
  | .nd _ => .error .attributeError
  | v => .ok v.T

theorem step_T {env : PyEnv V} (he : env.Ok) {v : SpVal V} (h : v.Good) :
    Step v.TE v.ty.T v.nnz (TMethod env v.obj) := by
  have main : ∀ τ, v.ty.T = .ok τ → Step (.ok v.T) (.ok τ) v.nnz (TMethod env v.obj) := fun τ ht => by
    obtain ⟨h1, h2, h3⟩ := h.T ht
    exact .ret h1.1 h2 h3 (tMethod_iff he h ht)
  cases v with
  | mat f a => exact main _ rfl
  | coo a => exact main _ rfl
  | nd a => exact .raise fun out => Iff.rfl

/-- `x.prune(eps)`. -/
def SpVal.pruneE (eps : V) (v : SpVal V) : Except PyErr (SpVal V) :=
  match v with
  | .nd _ => .error .attributeError
  | v => .ok (v.prune eps)

theorem step_prune (env : PyEnv V) (eps : V) {v : SpVal V} (h : v.Good) :
    Step (v.pruneE eps) v.ty.prune v.nnz (PruneMethod env eps v.obj) := by
  have main : v.ty.prune = .ok v.ty → Step (.ok (v.prune eps)) (.ok v.ty) v.nnz (PruneMethod env eps v.obj) := fun ht =>
    .ret (v.prune_valid eps h.1) (v.prune_ty eps) (v.prune_nnz eps h.1) (pruneMethod_iff env eps h ht)
  cases v with
  | mat f a => exact main rfl
  | coo a => exact main rfl
  | nd a => exact .raise fun out => Iff.rfl

/-! ### binary operators -/

/-- `x op y`. -/
def SpVal.bin (env : PyEnv V) (op : BinOp) (v w : SpVal V) : Except PyErr (SpVal V) :=
  match v, w with
  | .mat f a, .mat g b =>
    if f = g then
      if a.n = b.n ∧ a.m = b.m then .ok (.mat f (binComp op.count op.fill a b)) else .error .panic
    else .error .notImplemented
  | .nd a, .nd b =>
    if op = .mul then (match broadcastMulNd env.order env.threads env.ndSort a b with
      | some r => .ok (.nd r)
      | none => .error .panic)
    else .error .notImplemented
  | _, _ => .error .notImplemented

/-- The bound on the stored entries of `x op y`. -/
def binBound (τ : Ty) (b c : Nat) : Nat :=
  match τ with
  | .nd _ => max 1 b * max 1 c
  | _ => b + c

theorem step_bin {env : PyEnv V} (he : env.Ok) (op : BinOp) {v w : SpVal V} (hv : v.Good) (hw : w.Good) {b c : Nat}
    (hb : v.nnz ≤ b) (hc : w.nnz ≤ c) (hfit : ∀ τ, Ty.bin op v.ty w.ty = .ok τ → τ.SizeOk (binBound v.ty b c)) :
    Step (v.bin env op w) (Ty.bin op v.ty w.ty) (binBound v.ty b c) (fun out => BinObj env op v.obj w.obj out) := by
  cases v with
  | mat f x =>
    cases w with
    | mat g y =>
      by_cases hfg : f = g
      · subst hfg
        have hx : x.WF := hv.1
        have hy : y.WF := hw.1
        have hx' : x.data.length ≤ b := hb
        have hy' : y.data.length ≤ c := hc
        by_cases hnm : x.n = y.n ∧ x.m = y.m
        · have hr : f.rows x = f.rows y ∧ f.cols x = f.cols y := by
            cases f
            · exact hnm
            · exact hnm.symm
          have e1 : (SpVal.mat f x).bin env op (SpVal.mat f y) = .ok (.mat f (binComp op.count op.fill x y)) := by
            unfold SpVal.bin; dsimp only; rw [if_pos rfl, if_pos hnm]
          have e2 : Ty.bin op (SpVal.mat f x).ty (SpVal.mat f y).ty = .ok (.mat f (f.rows x) (f.cols x)) := by
            show (if f ≠ f then _ else if _ then _ else _) = _
            rw [if_neg (by simp), if_pos hr]
          obtain ⟨c1, c2, c3⟩ := op.comp_wf hx hy hnm.1 hnm.2
          have hlen := op.comp_length hx hy hnm.1
          have hty : (SpVal.mat f (binComp op.count op.fill x y)).ty = .mat f (f.rows x) (f.cols x) := by
            cases f
            · show Ty.mat .csr _ _ = _; unfold Fmt.rows Fmt.cols; rw [c2, c3]
            · show Ty.mat .csc _ _ = _; unfold Fmt.rows Fmt.cols; rw [c2, c3]
          have hn : (SpVal.mat f (binComp op.count op.fill x y)).nnz ≤ b + c := by
            show (binComp op.count op.fill x y).data.length ≤ b + c
            omega
          have hg : (SpVal.mat f (binComp op.count op.fill x y)).Good := ⟨c1, by
            rw [hty]; exact (hfit _ e2).mono hn⟩
          rw [e1, e2]
          exact .ret c1 hty hn (binObj_mat_iff env f op hv hw hnm hg)
        · have hr : ¬ (f.rows x = f.rows y ∧ f.cols x = f.cols y) := by
            cases f
            · exact hnm
            · exact fun h => hnm h.symm
          have e1 : (SpVal.mat f x).bin env op (SpVal.mat f y) = .error .panic := by
            unfold SpVal.bin; dsimp only; rw [if_pos rfl, if_neg hnm]
          have e2 : Ty.bin op (SpVal.mat f x).ty (SpVal.mat f y).ty = .error .panic := by
            show (if f ≠ f then _ else if _ then _ else _) = _
            rw [if_neg (by simp), if_neg hr]
          rw [e1, e2]
          exact .raise (binObj_mat_panic env f op hv hw hnm)
      · have e1 : (SpVal.mat f x).bin env op (SpVal.mat g y) = .error .notImplemented := by
          unfold SpVal.bin; dsimp only; rw [if_neg hfg]
        have e2 : Ty.bin op (SpVal.mat f x).ty (SpVal.mat g y).ty = .error .notImplemented := by
          show (if f ≠ g then _ else _) = _
          rw [if_pos hfg]
        rw [e1, e2]
        refine .raise fun out => ?_
        show (if f = g then _ else _) ↔ _
        rw [if_neg hfg]
    | coo y => exact .raise fun out => Iff.rfl
    | nd y => exact .raise fun out => Iff.rfl
  | coo x => cases w <;> exact .raise fun out => Iff.rfl
  | nd x =>
    cases w with
    | mat g y => exact .raise fun out => Iff.rfl
    | coo y => exact .raise fun out => Iff.rfl
    | nd y =>
      by_cases hop : op = .mul
      · subst hop
        obtain ⟨hxw, hxi⟩ : x.WF ∧ x.I64 := hv.1
        obtain ⟨hyw, hyi⟩ : y.WF ∧ y.I64 := hw.1
        have hx' : x.data.length ≤ b := hb
        have hy' : y.data.length ≤ c := hc
        have hR : ∀ out, BinObj env .mul (SpVal.nd x).obj (SpVal.nd y).obj out ↔
            ∃ o, Settles (fun N => BroadcastPtr env.dbg N env.order env.threads env.ndSort x y) o ∧
              out = (PyRes.ofKernel o).bind wrapNd := by
          intro out
          simp only [BinObj, SpVal.obj, hv.ndParts, hw.ndParts, if_true]
          rfl
        have hp1 : ∀ d ∈ x.shape, 0 < d := pos_of_prod_pos hv.2.1
        have hp2 : ∀ d ∈ y.shape, 0 < d := pos_of_prod_pos hw.2.1
        cases hbc : bcastTo x.shape y.shape with
        | none =>
          have hno := bcastTo_none hbc
          have e2 : Ty.bin .mul (SpVal.nd x).ty (SpVal.nd y).ty = .error .panic := by
            simp only [Ty.bin, SpVal.ty, hbc, if_true]
          have e1 : (SpVal.nd x).bin env .mul (SpVal.nd y) = .error .panic := by
            simp only [SpVal.bin, if_true, broadcast_mul_incompatible _ _ _ _ _ (fun ⟨o, h⟩ => hno o h)]
          rw [e1, e2]
          refine .raise fun out => ?_
          have hs : ∀ o, Settles (fun N => BroadcastPtr env.dbg N env.order env.threads env.ndSort x y) o ↔ o = .error .panic :=
            fun o => settles_iff 0 fun N _ o => broadcast_ptr_incompatible hno o
          rw [hR]
          simp only [hs, exists_eq_left]
          rfl
        | some u =>
          have hbr := bcastTo_some hp1 hp2 hbc
          have e2 : Ty.bin .mul (SpVal.nd x).ty (SpVal.nd y).ty = .ok (.nd u) := by
            simp only [Ty.bin, SpVal.ty, hbc, if_true]
          obtain ⟨f1, f2, f3, f4⟩ := hfit _ e2
          have f3 : 24 * ((max 1 b * max 1 c : Nat) : Int) ≤ i64Max := f3
          have f4 : 8 * ((max 1 b * max 1 c * u.length : Nat) : Int) ≤ i64Max := f4
          have m1 : x.data.length * y.data.length ≤ max 1 b * max 1 c := Nat.mul_le_mul (by omega) (by omega)
          have m2 : x.data.length ≤ max 1 b * max 1 c := by
            have := Nat.mul_le_mul (show x.data.length ≤ max 1 b by omega) (show 1 ≤ max 1 c by omega)
            omega
          have m3 : y.data.length ≤ max 1 b * max 1 c := by
            have := Nat.mul_le_mul (show 1 ≤ max 1 b by omega) (show y.data.length ≤ max 1 c by omega)
            omega
          have m1' := Nat.mul_le_mul_right u.length m1
          have m2' := Nat.mul_le_mul_right u.length m2
          have m3' := Nat.mul_le_mul_right u.length m3
          have hth := he.threads
          have main := fun F hF => broadcast_ptr_full (dbg := env.dbg) (F := F) he.keys he.nd hxw hyw hxi hyi hbr
            (by unfold i64Max at f2; unfold usizeMax; omega) (nthreads := env.threads) (by unfold usizeMax; omega) (by omega)
            hF (by omega) (by omega) (by omega)
          obtain ⟨r, -, r2, r3, r4, r5, r6⟩ := main (3 * max 1024 (x.data.length * y.data.length) + 16) (Nat.le_refl _)
          have e1 : (SpVal.nd x).bin env .mul (SpVal.nd y) = .ok (.nd r) := by
            simp only [SpVal.bin, if_true, r2]
          have hn : (SpVal.nd r).nnz ≤ max 1 b * max 1 c := le_trans r6 m1
          have hty : (SpVal.nd r).ty = .nd u := congrArg Ty.nd r3
          have hg : (SpVal.nd r).Good := ⟨⟨r4, r5⟩, by rw [hty]; exact (hfit _ e2).mono hn⟩
          have hs : ∀ o, Settles (fun N => BroadcastPtr env.dbg N env.order env.threads env.ndSort x y) o ↔ o = .ok r :=
            fun o => settles_iff (3 * max 1024 (x.data.length * y.data.length) + 16) fun N hN o => by
              obtain ⟨r', q1, q2, -⟩ := main N hN
              rw [r2] at q2; cases q2
              exact q1 o
          rw [e1, e2]
          refine .ret ⟨r4, r5⟩ hty hn fun out => ?_
          rw [hR]
          simp only [hs, exists_eq_left]
          rw [← wrapNd_of hg]; rfl
      · have e1 : (SpVal.nd x).bin env op (SpVal.nd y) = .error .notImplemented := by
          unfold SpVal.bin; dsimp only; rw [if_neg hop]
        have e2 : Ty.bin op (SpVal.nd x).ty (SpVal.nd y).ty = .error .notImplemented := by
          show (if op = .mul then _ else _) = _
          rw [if_neg hop]
        rw [e1, e2]
        refine .raise fun out => ?_
        show (if op = .mul then _ else _) ↔ _
        rw [if_neg hop]

/-! ### methods of N-D arrays -/

/-- A kernel that may panic. -/
def ndRes (o : Option (CooNd V)) : Except PyErr (SpVal V) :=
  match o with
  | some r => .ok (.nd r)
  | none => .error .panic

/-- The method at list level. -/
def NdOp.apply (env : PyEnv V) (op : NdOp) (a : CooNd V) (xs : List Nat) : Except PyErr (SpVal V) :=
  match op with
  | .reshape => (match reshapeNd a xs with
    | some r => if xs = [] then .error .valueError else .ok (.nd r)
    | none => .error .panic)
  | .permute => ndRes (permuteNd a xs)
  | .reduceSum => ndRes (reduceSumNd env.ndSort a xs)
  | .reduceMean => ndRes (reduceMeanNd env.ndSort a xs)
  | .unfold f => (match axesToCoo a xs with
    | some c => .ok (.mat f (unfoldComp env.tripleSort f c))
    | none => .error .panic)

theorem nd_fits {a : CooNd V} (h : (SpVal.nd a).Good) :
    a.WF ∧ a.I64 ∧ 0 < a.shape.prod ∧ (a.shape.prod : Int) ≤ i64Max ∧ a.shape.prod ≤ usizeMax ∧
      24 * (a.data.length : Int) ≤ i64Max ∧ 8 * (a.indices.length : Int) ≤ i64Max ∧
      a.data.length * a.shape.length ≤ usizeMax := by
  obtain ⟨⟨h1, h2⟩, h3, h4, h5, h6⟩ := h
  have h4 : (a.shape.prod : Int) ≤ i64Max := h4
  have h6 : 8 * ((a.data.length * a.shape.length : Nat) : Int) ≤ i64Max := h6
  refine ⟨h1, h2, h3, h4, ?_, h5, ?_, ?_⟩
  · unfold i64Max at h4; unfold usizeMax; omega
  · rw [h1.length]; exact h6
  · unfold i64Max at h6; unfold usizeMax; omega

theorem step_reshape {env : PyEnv V} {a : CooNd V} (h : (SpVal.nd a).Good) (xs : List Nat)
    (hfit : ∀ τ, NdOp.reshape.ty a.shape xs = .ok τ → τ.SizeOk a.data.length) :
    Step (NdOp.reshape.apply env a xs) (NdOp.reshape.ty a.shape xs) a.data.length (NdOp.reshape.Kernel env a xs) := by
  obtain ⟨hw, hi, hpos, h63, hus, h24, hidx, hU⟩ := nd_fits h
  by_cases hp : xs.prod = a.shape.prod
  · have hruns := reshape_runs hw hi hp hpos hus
    by_cases hx : xs = []
    · subst hx
      obtain ⟨r, hr⟩ := Option.isSome_iff_exists.1 hruns
      have hr0 : r.shape = [] ∧ r.indices = [] := by
        unfold reshapeNd at hr
        obtain ⟨o1, -, hr⟩ := Option.bind_eq_some_iff.1 hr
        obtain ⟨o2, -, hr⟩ := Option.bind_eq_some_iff.1 hr
        split_ifs at hr
        · cases hr; exact ⟨rfl, rfl⟩
        · obtain ⟨o3, -, hr⟩ := Option.bind_eq_some_iff.1 hr
          obtain ⟨o4, h4, hr⟩ := Option.bind_eq_some_iff.1 hr
          obtain ⟨o5, -, hr⟩ := Option.bind_eq_some_iff.1 hr
          cases hr
          cases h4
          refine ⟨rfl, ?_⟩
          show (o5.flatMap fun e => ((delin [] e.1).map usizeToI64)) = []
          simp [delin]
      have e1 : NdOp.reshape.apply env a [] = .error .valueError := by
        simp only [NdOp.apply, hr, if_true]
      have e2 : NdOp.reshape.ty a.shape [] = .error .valueError := by
        simp only [NdOp.ty, hp, ne_eq, not_true, if_false, if_true]
      rw [e1, e2]
      refine .raise fun out => ?_
      have hk : ∀ o, ReshapePtr env.dbg a [] o ↔ o = .ok r := by
        rcases reshapePtr_core (dbg := env.dbg) (newShape := []) (Nat.le_of_eq hw.length.symm) hU
          (by simp) with ⟨hr', -⟩ | ⟨r', hr', h1 | ⟨-, h2⟩⟩
        · rw [hr] at hr'; cases hr'
        · rw [hr] at hr'; cases hr'; exact h1
        · rw [hr] at hr'; cases hr'
          rcases h2 with h2 | ⟨-, ⟨i, hi', hneg⟩ | ⟨i, hi', hneg⟩⟩
          · simp [i64Max] at h2
          · have := hw.nonneg i hi'; omega
          · rw [hr0.2] at hi'; simp at hi'
      show (∃ o, ReshapePtr env.dbg a [] o ∧ _) ↔ _
      simp only [hk, exists_eq_left]
      show out = wrapNd r ↔ _
      have : wrapNd r = .raises .valueError := by
        unfold wrapNd PyNd.wrap
        rw [if_pos (by rw [hr0.1]; simp), hr0.1]
        rfl
      rw [this]
    · have e2 : NdOp.reshape.ty a.shape xs = .ok (.nd xs) := by
        simp only [NdOp.ty, hp, ne_eq, not_true, if_false, hx]
      have hf := hfit _ e2
      obtain ⟨f1, f2, f3, f4⟩ := hf
      have f2 : (xs.prod : Int) ≤ i64Max := f2
      have hd : ∀ s ∈ xs, (s : Int) ≤ 2 ^ 63 := fun s hs => by
        have := le_prod_of_mem f1 hs
        unfold i64Max at f2; omega
      obtain ⟨r, hr1, -⟩ := reshape_ptr_correct (dbg := env.dbg) hw hi hx hp hpos hus hd hU f4
      obtain ⟨r', hr⟩ := Option.isSome_iff_exists.1 hruns
      have hk : ∀ o, ReshapePtr env.dbg a xs o ↔ o = .ok r' := by
        rcases reshapePtr_core (dbg := env.dbg) (newShape := xs) (Nat.le_of_eq hw.length.symm) hU
          (by have f4 : 8 * ((a.data.length * xs.length : Nat) : Int) ≤ i64Max := f4
              unfold i64Max at f4; unfold usizeMax; omega) with ⟨hr', -⟩ | ⟨r'', hr'', h1 | ⟨h2, -⟩⟩
        · rw [hr] at hr'; cases hr'
        · rw [hr] at hr''; cases hr''; exact h1
        · have h3 := (hr1 (.ok r)).2 rfl
          rw [h2] at h3
          cases h3
      obtain ⟨c1, c2, c3, -, c5⟩ := reshape_correct hw hi hx hd hr
      have hn : r'.data.length = a.data.length := by
        have := congrArg List.length c5
        simpa [CooNd.entries_length] using this
      have e1 : NdOp.reshape.apply env a xs = .ok (.nd r') := by
        simp only [NdOp.apply, hr, hx, if_false]
      have hty : (SpVal.nd r').ty = .nd xs := congrArg Ty.nd c1
      have hg : (SpVal.nd r').Good := ⟨⟨c2, c3⟩, by
        rw [hty]; show Ty.SizeOk r'.data.length _; rw [hn]; exact hfit _ e2⟩
      rw [e1, e2]
      refine .ret ⟨c2, c3⟩ hty (Nat.le_of_eq hn) fun out => ?_
      show (∃ o, ReshapePtr env.dbg a xs o ∧ _) ↔ _
      simp only [hk, exists_eq_left]
      rw [← wrapNd_of hg]; rfl
  · have e1 : NdOp.reshape.apply env a xs = .error .panic := by
      simp only [NdOp.apply, reshape_rejects a xs hp]
    have e2 : NdOp.reshape.ty a.shape xs = .error .panic := by
      simp only [NdOp.ty, ne_eq, hp, not_false_eq_true, if_true]
    rw [e1, e2]
    refine .raise fun out => ?_
    have hc : reshapeCheckP a xs = .error .panic := by
      unfold reshapeCheckP
      rw [productChecked_pos hpos hus]
      cases hq : productChecked xs with
      | none => rfl
      | some q =>
        have := (productChecked_some hq).1
        show (if a.shape.prod = q then _ else _) = _
        rw [if_neg (by omega)]
    show (∃ o, ReshapePtr env.dbg a xs o ∧ _) ↔ _
    have hk : ∀ o, ReshapePtr env.dbg a xs o ↔ o = .error .panic := fun o => by
      unfold ReshapePtr; rw [hc]
    simp only [hk, exists_eq_left]
    rfl

theorem step_permute {env : PyEnv V} {a : CooNd V} (h : (SpVal.nd a).Good) (xs : List Nat)
    (hfit : ∀ τ, NdOp.permute.ty a.shape xs = .ok τ → τ.SizeOk a.data.length) :
    Step (NdOp.permute.apply env a xs) (NdOp.permute.ty a.shape xs) a.data.length (NdOp.permute.Kernel env a xs) := by
  obtain ⟨hw, hi, -⟩ := nd_fits h
  by_cases hp : xs.Perm (List.range a.shape.length)
  · obtain ⟨r, r1, r2, r3, r4, r5, -⟩ := permute_correct hw hi hp
    have hn : r.data.length = a.data.length := by
      have := congrArg List.length r5
      simpa [CooNd.entries_length] using this
    have e1 : NdOp.permute.apply env a xs = .ok (.nd r) := by
      simp only [NdOp.apply, r1, ndRes]
    have e2 : NdOp.permute.ty a.shape xs = .ok (.nd (extents a.shape xs)) := by
      simp only [NdOp.ty, hp, if_true]
    have hty : (SpVal.nd r).ty = .nd (extents a.shape xs) := congrArg Ty.nd r2
    have hg : (SpVal.nd r).Good := ⟨⟨r3, r4⟩, by
      rw [hty]; show Ty.SizeOk r.data.length _; rw [hn]; exact hfit _ e2⟩
    rw [e1, e2]
    refine .ret ⟨r3, r4⟩ hty (Nat.le_of_eq hn) fun out => ?_
    show out = (PyRes.ofKernel (expectP (permuteNd a xs))).bind wrapNd ↔ _
    rw [r1, ← wrapNd_of hg]; rfl
  · have hno : permuteNd a xs = none := by
      cases hq : permuteNd a xs with
      | none => rfl
      | some r => exact absurd ((permute_returns_iff a hw xs).1 (by rw [hq]; rfl)) hp
    have e1 : NdOp.permute.apply env a xs = .error .panic := by
      simp only [NdOp.apply, hno, ndRes]
    have e2 : NdOp.permute.ty a.shape xs = .error .panic := by
      simp only [NdOp.ty, hp, if_false]
    rw [e1, e2]
    refine .raise fun out => ?_
    show out = (PyRes.ofKernel (expectP (permuteNd a xs))).bind wrapNd ↔ _
    rw [hno]; rfl

theorem axesBad {n : Nat} {xs : List Nat} (h : ¬ (AxesOk n xs ∧ xs ≠ [] ∧ restAxes n xs ≠ [])) :
    xs = [] ∨ (∃ p ∈ xs, ¬ p < n) ∨ ¬ xs.Nodup ∨ restAxes n xs = [] := by
  by_contra hc
  push Not at hc
  exact h ⟨⟨hc.2.1, hc.2.2.1⟩, hc.1, hc.2.2.2⟩

theorem step_reduceSum {env : PyEnv V} (he : env.Ok) {a : CooNd V} (h : (SpVal.nd a).Good) (xs : List Nat)
    (hfit : ∀ τ, NdOp.reduceSum.ty a.shape xs = .ok τ → τ.SizeOk a.data.length) :
    Step (NdOp.reduceSum.apply env a xs) (NdOp.reduceSum.ty a.shape xs) a.data.length (NdOp.reduceSum.Kernel env a xs) := by
  obtain ⟨hw, hi, hpos, h63, hus, h24, hidx, hU⟩ := nd_fits h
  by_cases hc : AxesOk a.shape.length xs ∧ xs ≠ [] ∧ restAxes a.shape.length xs ≠ []
  · obtain ⟨⟨hlt, hnd⟩, hne, hrest⟩ := id hc
    obtain ⟨g1, g2⟩ := extents_prod_le (restAxes_ok a.shape.length xs) hpos
    have hno := noOverflow_of_pos g1 (g2.trans hus)
    obtain ⟨r, r1, r2, r3, r4, r5, r6⟩ := reduce_sum_spec he.nd hw hi hne hlt hnd hrest hno
    have hn := reduceSum_length r5 fun y v => (r6 y v).1
    have e1 : NdOp.reduceSum.apply env a xs = .ok (.nd r) := by
      simp only [NdOp.apply, r1, ndRes]
    have e2 : NdOp.reduceSum.ty a.shape xs = .ok (.nd (extents a.shape (restAxes a.shape.length xs))) := by
      simp only [NdOp.ty]; rw [if_pos hc]
    have hty : (SpVal.nd r).ty = .nd (extents a.shape (restAxes a.shape.length xs)) := congrArg Ty.nd r2
    have hg : (SpVal.nd r).Good := ⟨⟨r3, r4⟩, by rw [hty]; exact (hfit _ e2).mono hn⟩
    have hs : ∀ o, Settles (fun N o => o = reduceSumNdP env.dbg N env.ndSort a xs) o ↔ o = .ok r := fun o =>
      settles_iff (3 * a.data.length + 16) fun N hN o => by
        obtain ⟨r', q1, q2⟩ := reduce_sum_nd_ptr (dbg := env.dbg) (F := N) he.nd hw hi hne hlt hnd hrest hno h24 hidx hN
        rw [r1] at q2; cases q2
        rw [q1]
    rw [e1, e2]
    refine .ret ⟨r3, r4⟩ hty hn fun out => ?_
    show (∃ o, Settles _ o ∧ _) ↔ _
    simp only [hs, exists_eq_left]
    rw [← wrapNd_of hg]; rfl
  · have e1 : NdOp.reduceSum.apply env a xs = .error .panic := by
      simp only [NdOp.apply, reduce_sum_rejects _ a xs (axesBad hc), ndRes]
    have e2 : NdOp.reduceSum.ty a.shape xs = .error .panic := by
      simp only [NdOp.ty]; rw [if_neg hc]
    have hs : ∀ o, Settles (fun N o => o = reduceSumNdP env.dbg N env.ndSort a xs) o ↔ o = .error .panic := fun o =>
      settles_iff 0 fun N _ o => by rw [reduce_sum_nd_rejects env.dbg N _ a xs (axesBad hc)]
    rw [e1, e2]
    refine .raise fun out => ?_
    show (∃ o, Settles _ o ∧ _) ↔ _
    simp only [hs, exists_eq_left]
    rfl

theorem mulScalarData_fn (alpha : V) (d : List V) : mulScalarData alpha d = (DataOp.mul alpha).fn d := by
  unfold mulScalarData DataOp.fn
  rw [simdMapData_eq]
  simp only [List.map_const']

theorem step_reduceMean {env : PyEnv V} (he : env.Ok) {a : CooNd V} (h : (SpVal.nd a).Good) (xs : List Nat)
    (hfit : ∀ τ, NdOp.reduceMean.ty a.shape xs = .ok τ → τ.SizeOk a.data.length) :
    Step (NdOp.reduceMean.apply env a xs) (NdOp.reduceMean.ty a.shape xs) a.data.length (NdOp.reduceMean.Kernel env a xs) := by
  obtain ⟨hw, hi, hpos, h63, hus, h24, hidx, hU⟩ := nd_fits h
  by_cases hc : AxesOk a.shape.length xs ∧ xs ≠ [] ∧ restAxes a.shape.length xs ≠ []
  · obtain ⟨⟨hlt, hnd⟩, hne, hrest⟩ := id hc
    obtain ⟨g1, g2⟩ := extents_prod_le (restAxes_ok a.shape.length xs) hpos
    have hno := noOverflow_of_pos g1 (g2.trans hus)
    obtain ⟨r, r1, r2, r3, r4, r5, r6⟩ := reduce_sum_spec he.nd hw hi hne hlt hnd hrest hno
    have hn := reduceSum_length r5 fun y v => (r6 y v).1
    have hax : AxesOk a.shape.length ((List.range a.shape.length).filter fun d => xs.contains d) :=
      ⟨fun _ hp => List.mem_range.1 (List.mem_filter.1 hp).1, List.Nodup.filter _ List.nodup_range⟩
    obtain ⟨d1, d2⟩ := extents_prod_le hax hpos
    have hden := productChecked_pos d1 (d2.trans hus)
    generalize hD : (extents a.shape ((List.range a.shape.length).filter fun d => xs.contains d)).prod = D at hden
    generalize hR : (if D = 1 then r else { r with data := (DataOp.mul (1 / (D : V))).fn r.data }) = R
    have hRd : R.data.length = r.data.length := by
      rw [← hR]; split_ifs
      · rfl
      · exact DataOp.fn_length (DataOp.mul (1 / (D : V))) r.data
    have hRs : R.shape = r.shape := by rw [← hR]; split_ifs <;> rfl
    have hRv : (SpVal.nd R).Valid := by
      rw [← hR]; split_ifs
      · exact ⟨r3, r4⟩
      · exact SpVal.mapData_valid (v := .nd r) _ ⟨r3, r4⟩
    have hmean : reduceMeanNd env.ndSort a xs = some R := by
      unfold reduceMeanNd
      rw [r1, Option.bind_some, show (((List.range a.shape.length).filter fun d => xs.contains d).map
        fun d => a.shape.getD d 0) = extents a.shape ((List.range a.shape.length).filter fun d => xs.contains d) from rfl, hden,
        Option.bind_some, ← hR]
      split_ifs
      · rfl
      · unfold mulScalarCooNd; rw [mulScalarData_fn]
    have e1 : NdOp.reduceMean.apply env a xs = .ok (.nd R) := by
      simp only [NdOp.apply, hmean, ndRes]
    have e2 : NdOp.reduceMean.ty a.shape xs = .ok (.nd (extents a.shape (restAxes a.shape.length xs))) := by
      simp only [NdOp.ty]; rw [if_pos hc]
    have hty : (SpVal.nd R).ty = .nd (extents a.shape (restAxes a.shape.length xs)) := congrArg Ty.nd (hRs.trans r2)
    have hnn : (SpVal.nd R).nnz ≤ a.data.length := by show R.data.length ≤ _; omega
    have hg : (SpVal.nd R).Good := ⟨hRv, by rw [hty]; exact (hfit _ e2).mono hnn⟩
    have hs : ∀ o, Settles (fun N => ReduceMeanPtr env.dbg N env.ndSort a xs) o ↔ o = .ok R := fun o =>
      settles_iff (3 * a.data.length + 16) fun N hN o => by
        obtain ⟨r', q1, q2⟩ := reduce_sum_nd_ptr (dbg := env.dbg) (F := N) he.nd hw hi hne hlt hnd hrest hno h24 hidx hN
        rw [r1] at q2; cases q2
        unfold ReduceMeanPtr
        rw [q1, show (((List.range a.shape.length).filter fun d => xs.contains d).map
          fun d => a.shape.getD d 0) = extents a.shape ((List.range a.shape.length).filter fun d => xs.contains d) from rfl, hden]
        show (if D = 1 then o = .ok r else _) ↔ _
        rw [← hR]
        split_ifs
        · rfl
        · have hm := mul_scalar_ptr (1 / (D : V)) r.data (by unfold i64Max at h24; unfold usizeMax; omega) (F := N) (by omega)
          simp only [hm, exists_eq_left]
          rfl
    rw [e1, e2]
    refine .ret hRv hty hnn fun out => ?_
    show (∃ o, Settles _ o ∧ _) ↔ _
    simp only [hs, exists_eq_left]
    rw [← wrapNd_of hg]; rfl
  · have e1 : NdOp.reduceMean.apply env a xs = .error .panic := by
      simp only [NdOp.apply, reduceMeanNd, reduce_sum_rejects _ a xs (axesBad hc), ndRes, Option.bind_none]
    have e2 : NdOp.reduceMean.ty a.shape xs = .error .panic := by
      simp only [NdOp.ty]; rw [if_neg hc]
    have hs : ∀ o, Settles (fun N => ReduceMeanPtr env.dbg N env.ndSort a xs) o ↔ o = .error .panic := fun o =>
      settles_iff 0 fun N _ o => by unfold ReduceMeanPtr; rw [reduce_sum_nd_rejects env.dbg N _ a xs (axesBad hc)]; rfl
    rw [e1, e2]
    refine .raise fun out => ?_
    show (∃ o, Settles _ o ∧ _) ↔ _
    simp only [hs, exists_eq_left]
    rfl

theorem step_unfold {env : PyEnv V} (he : env.Ok) (f : Fmt) {a : CooNd V} (h : (SpVal.nd a).Good) (xs : List Nat)
    (hfit : ∀ τ, (NdOp.unfold f).ty a.shape xs = .ok τ → τ.SizeOk a.data.length) :
    Step ((NdOp.unfold f).apply env a xs) ((NdOp.unfold f).ty a.shape xs) a.data.length ((NdOp.unfold f).Kernel env a xs) := by
  obtain ⟨hw, hi, hpos, h63, hus, h24, hidx, hU⟩ := nd_fits h
  by_cases hc : AxesOk a.shape.length xs
  · obtain ⟨p1, p2⟩ := extents_prod_le hc hpos
    obtain ⟨g1, g2⟩ := extents_prod_le (restAxes_ok a.shape.length xs) hpos
    obtain ⟨r, r1, r2, r3⟩ := unfold_coo_runs hw hi hc.1 hc.2 p1 (p2.trans hus) g1 (g2.trans hus)
    have hrow : (r.nrows : Int) ≤ i64Max := by rw [r2]; omega
    have hcol : (r.ncols : Int) ≤ i64Max := by rw [r3]; omega
    obtain ⟨-, -, s3, s4, s5, -⟩ := unfold_coo_spec hw hi r1 (by unfold i64Max at hrow; omega) (by unfold i64Max at hcol; omega)
    have hk : ∀ o, UnfoldPtr env.dbg a xs o ↔ o = .ok r := by
      rcases unfoldPtr_core (dbg := env.dbg) (rowAxes := xs) (Nat.le_of_eq hw.length.symm) hU
        with ⟨hr, -⟩ | ⟨r', hr, h1 | ⟨-, h2⟩⟩
      · rw [hr] at r1; cases r1
      · rw [hr] at r1; cases r1; exact h1
      · rw [hr] at r1; cases r1
        rcases h2 with h2 | ⟨-, ⟨i, hi', hneg⟩ | ⟨i, hi', hneg⟩ | ⟨i, hi', hneg⟩⟩
        · omega
        · have := hw.nonneg i hi'; omega
        · have := (s4.row_bounds i hi').1; omega
        · have := (s4.col_bounds i hi').1; omega
    have hlen : (r.data.length : Int) ≤ i64Max := by rw [s3]; omega
    have hcomp : (unfoldComp env.tripleSort f r).WF ∧ f.rows (unfoldComp env.tripleSort f r) = r.nrows ∧
        f.cols (unfoldComp env.tripleSort f r) = r.ncols ∧ (unfoldComp env.tripleSort f r).data.length ≤ a.data.length := by
      cases f with
      | csr =>
        obtain ⟨c1, c2, c3, -⟩ := coo_to_csr_exact he.triple s4 s5 hrow hlen
        exact ⟨c3, c1, c2, by rw [← s3]; exact cooToCsr_data_length_le he.triple s4 hrow hlen⟩
      | csc =>
        obtain ⟨c1, c2, c3, -⟩ := coo_to_csc_exact he.triple s4 s5 hcol hlen
        refine ⟨c3, c1, c2, ?_⟩
        rw [← s3]
        exact cooToCsr_data_length_le (a := r.tr) he.triple s4.tr hcol hlen
    obtain ⟨c1, c2, c3, c4⟩ := hcomp
    have e1 : (NdOp.unfold f).apply env a xs = .ok (.mat f (unfoldComp env.tripleSort f r)) := by
      simp only [NdOp.apply, r1]
    have e2 : (NdOp.unfold f).ty a.shape xs = .ok (.mat f (extents a.shape xs).prod
        (extents a.shape (restAxes a.shape.length xs)).prod) := by
      simp only [NdOp.ty, hc, if_true]
    have hty : (SpVal.mat f (unfoldComp env.tripleSort f r)).ty = .mat f (extents a.shape xs).prod
        (extents a.shape (restAxes a.shape.length xs)).prod := by
      show Ty.mat f _ _ = _
      rw [c2, c3, r2, r3]
    have hg : (SpVal.mat f (unfoldComp env.tripleSort f r)).Good := ⟨c1, by rw [hty]; exact (hfit _ e2).mono c4⟩
    rw [e1, e2]
    refine .ret c1 hty c4 fun out => ?_
    show (∃ o, UnfoldPtr env.dbg a xs o ∧ _) ↔ _
    simp only [hk, exists_eq_left]
    rw [← wrapMat_of hg]; rfl
  · have hbad : (∃ p ∈ xs, ¬ p < a.shape.length) ∨ ¬ xs.Nodup := by
      by_contra hcc
      push Not at hcc
      exact hc hcc
    have hno := unfold_rejects a xs hbad
    have e1 : (NdOp.unfold f).apply env a xs = .error .panic := by
      simp only [NdOp.apply, hno]
    have e2 : (NdOp.unfold f).ty a.shape xs = .error .panic := by
      simp only [NdOp.ty, hc, if_false]
    have hk : ∀ o, UnfoldPtr env.dbg a xs o ↔ o = .error .panic := by
      rcases unfoldPtr_core (dbg := env.dbg) (rowAxes := xs) (Nat.le_of_eq hw.length.symm) hU
        with ⟨-, h1⟩ | ⟨r', hr, -⟩
      · exact h1
      · rw [hno] at hr; cases hr
    rw [e1, e2]
    refine .raise fun out => ?_
    show (∃ o, UnfoldPtr env.dbg a xs o ∧ _) ↔ _
    simp only [hk, exists_eq_left]
    rfl

theorem step_kernel {env : PyEnv V} (he : env.Ok) (op : NdOp) {a : CooNd V} (h : (SpVal.nd a).Good) (xs : List Nat)
    (hfit : ∀ τ, op.ty a.shape xs = .ok τ → τ.SizeOk a.data.length) :
    Step (op.apply env a xs) (op.ty a.shape xs) a.data.length (op.Kernel env a xs) := by
  cases op with
  | reshape => exact step_reshape h xs hfit
  | permute => exact step_permute h xs hfit
  | reduceSum => exact step_reduceSum he h xs hfit
  | reduceMean => exact step_reduceMean he h xs hfit
  | unfold f => exact step_unfold he f h xs hfit

/-- Such a method at list level. -/
def SpVal.ndop (env : PyEnv V) (op : NdOp) (arg : List Int) (v : SpVal V) : Except PyErr (SpVal V) :=
  match v with
  | .nd a => (argDims arg).bind (op.apply env a)
  | _ => .error op.missing

theorem argDims_eq (arg : List Int) : argDims arg = (npInt64 arg).bind shapeUsize := by
  by_cases h : ∃ x ∈ arg, x < -(2 ^ 63) ∨ i64Max < x
  · have e1 : npInt64 arg = .error .overflowError := by
      unfold npInt64
      rw [if_neg]
      intro h'
      obtain ⟨x, hx, hc⟩ := h
      have := h' x hx
      omega
    unfold argDims
    rw [if_pos h, e1]; rfl
  · have e1 : npInt64 arg = .ok arg := by
      unfold npInt64
      rw [if_pos]
      intro x hx
      by_contra hn
      exact h ⟨x, hx, by omega⟩
    rw [e1]
    unfold argDims
    rw [if_neg h]
    show _ = shapeUsize arg
    unfold shapeUsize
    by_cases h2 : ∃ x ∈ arg, x < 0
    · rw [if_pos h2, if_neg]
      intro h'
      obtain ⟨x, hx, hc⟩ := h2
      have := h' x hx
      omega
    · rw [if_neg h2, if_pos]
      intro x hx
      by_contra hn
      exact h2 ⟨x, hx, by omega⟩

theorem step_ndop {env : PyEnv V} (he : env.Ok) (op : NdOp) (arg : List Int) {v : SpVal V} (h : v.Good)
    (hfit : ∀ τ, v.ty.ndop op arg = .ok τ → τ.SizeOk v.nnz) :
    Step (v.ndop env op arg) (v.ty.ndop op arg) v.nnz (NdMethod env op arg v.obj) := by
  cases v with
  | mat f a => cases op <;> exact .raise fun out => Iff.rfl
  | coo a => cases op <;> exact .raise fun out => Iff.rfl
  | nd a =>
    have hfrom : (CooNd.fromParts a.shape a.indices a.data false).mapError (fun _ => PyErr.valueError) = .ok a := by
      have := h.ndParts
      unfold PyNd.parts at this
      rw [show (PyNd.of a).shape = a.shape.map Int.ofNat from rfl, shapeUsize_of] at this
      exact this
    have hR : ∀ out, NdMethod env op arg (SpVal.nd a).obj out ↔ (match argDims arg with
        | .error e => out = .raises e
        | .ok xs => op.Kernel env a xs out) := by
      intro out
      have hdo : (do
          let xs ← npInt64 arg
          let s ← shapeUsize (PyNd.of a).shape
          let xs ← shapeUsize xs
          let a ← (CooNd.fromParts s (PyNd.of a).indices (PyNd.of a).data false).mapError fun _ => .valueError
          pure (a, xs) : Except PyErr (CooNd V × List Nat)) = (argDims arg).bind fun xs => .ok (a, xs) := by
        rw [argDims_eq, show (PyNd.of a).shape = a.shape.map Int.ofNat from rfl, shapeUsize_of]
        cases npInt64 arg with
        | error e => rfl
        | ok ys =>
          show ((shapeUsize ys).bind fun xs => ((CooNd.fromParts a.shape a.indices a.data false).mapError
            (fun _ => PyErr.valueError)).bind fun a => .ok (a, xs)) = (shapeUsize ys).bind fun xs => .ok (a, xs)
          rw [hfrom]; rfl
      simp only [NdMethod, SpVal.obj]
      rw [hdo]
      cases argDims arg <;> rfl
    have hty : (SpVal.nd a).ty.ndop op arg = (argDims arg).bind (op.ty a.shape) := rfl
    rw [hty] at hfit ⊢
    show Step ((argDims arg).bind (op.apply env a)) _ _ _
    cases harg : argDims arg with
    | error e =>
      refine .raise fun out => ?_
      rw [hR, harg]
    | ok xs =>
      rw [harg] at hfit
      obtain ⟨h1, h2⟩ := step_kernel he op h xs hfit
      refine ⟨h1, fun out => ?_⟩
      rw [hR, harg]
      exact h2 out

/-- `mode_unfold_to_csr`, `mode_unfold_to_csc`. -/
def SpVal.mode (env : PyEnv V) (f : Fmt) (axis : Int) (v : SpVal V) : Except PyErr (SpVal V) :=
  match v with
  | .nd a =>
    if axis < 0 ∨ (usizeMax : Int) < axis then .error .overflowError
    else if axis.toNat < a.shape.length then (NdOp.unfold f).apply env a [axis.toNat] else .error .panic
  | _ => .error .attributeError

theorem step_mode {env : PyEnv V} (he : env.Ok) (f : Fmt) (axis : Int) {v : SpVal V} (h : v.Good)
    (hfit : ∀ τ, v.ty.mode f axis = .ok τ → τ.SizeOk v.nnz) :
    Step (v.mode env f axis) (v.ty.mode f axis) v.nnz (ModeUnfold env f axis v.obj) := by
  cases v with
  | mat g a => exact .raise fun out => Iff.rfl
  | coo a => exact .raise fun out => Iff.rfl
  | nd a =>
    have hty : (SpVal.nd a).ty.mode f axis = if axis < 0 ∨ (usizeMax : Int) < axis then .error .overflowError
      else if axis.toNat < a.shape.length then
        .ok (.mat f (a.shape.getD axis.toNat 0) (extents a.shape (restAxes a.shape.length [axis.toNat])).prod)
      else .error .panic := rfl
    rw [hty] at hfit ⊢
    simp only [SpVal.mode]
    by_cases h1 : axis < 0 ∨ (usizeMax : Int) < axis
    · rw [if_pos h1, if_pos h1]
      refine .raise fun out => ?_
      simp only [ModeUnfold, SpVal.obj]
      have : pyUsize axis = .error .overflowError := by unfold pyUsize; rw [if_neg (by omega)]
      rw [this]; rfl
    · rw [if_neg h1, if_neg h1]
      rw [if_neg h1] at hfit
      have hax : pyUsize axis = .ok axis.toNat := by unfold pyUsize; rw [if_pos (by omega)]
      have hR : ∀ out, ModeUnfold env f axis (SpVal.nd a).obj out ↔
          if axis.toNat < a.shape.length then (NdOp.unfold f).Kernel env a [axis.toNat] out else out = .raises .panic := by
        intro out
        simp only [ModeUnfold, SpVal.obj, hax, h.ndParts]
        rfl
      by_cases h2 : axis.toNat < a.shape.length
      · have e : (NdOp.unfold f).ty a.shape [axis.toNat] =
            .ok (.mat f (a.shape.getD axis.toNat 0) (extents a.shape (restAxes a.shape.length [axis.toNat])).prod) := by
          have : AxesOk a.shape.length [axis.toNat] := ⟨by simpa using h2, by simp⟩
          simp only [NdOp.ty, this, if_true, extents, List.map_cons, List.map_nil, List.prod_cons, List.prod_nil, mul_one]
        rw [if_pos h2, if_pos h2, ← e]
        rw [if_pos h2, ← e] at hfit
        obtain ⟨g1, g2⟩ := step_kernel he (.unfold f) h [axis.toNat] hfit
        refine ⟨g1, fun out => ?_⟩
        rw [hR, if_pos h2]
        exact g2 out
      · rw [if_neg h2, if_neg h2]
        refine .raise fun out => ?_
        rw [hR, if_neg h2]

/-! ### programs -/

/-- The value of a program at list level. -/
def Prog.value (env : PyEnv V) : Prog V → Except PyErr (SpVal V)
  | .mat f nrows ncols indptr indices data => (nativeNew f nrows ncols indptr indices data true).map (.mat f)
  | .coo nrows ncols row col data => .ok (.coo ⟨nrows.toNat, ncols.toNat, row, col, data⟩)
  | .nd shape indices data => .ok (.nd ⟨shape.map Int.toNat, indices, data⟩)
  | .un op a => (a.value env).map (SpVal.un op)
  | .bin op a b => (a.value env).bind fun v => (b.value env).bind fun w => v.bin env op w
  | .scalar op a alpha => (a.value env).bind (SpVal.scalar op alpha)
  | .left op alpha a => (a.value env).bind (SpVal.left op alpha)
  | .T a => (a.value env).bind SpVal.TE
  | .prune eps a => (a.value env).bind (SpVal.pruneE eps)
  | .elimZeros a => (a.value env).bind (SpVal.pruneE 0)
  | .ndop op arg a => (a.value env).bind (SpVal.ndop env op arg)
  | .mode f axis a => (a.value env).bind (SpVal.mode env f axis)

/-- A step with a looser bound. -/
theorem Step.mono {r : Except PyErr (SpVal V)} {t : Except PyErr Ty} {b c : Nat} {R : PyRes (PyObj V) → Prop}
    (h : Step r t b R) (hc : b ≤ c) : Step r t c R := by
  refine ⟨?_, h.2⟩
  have h1 := h.1
  cases t with
  | error x => exact h1
  | ok τ =>
    obtain ⟨w, e, hv, ht, hn⟩ := h1
    exact ⟨w, e, hv, ht, hn.trans hc⟩

theorem Prog.small_fits {e : Prog V} (h : e.Small) : e.Fits := by
  cases e with
  | mat f nr nc ip ix d => exact h
  | coo nr nc r c d => exact h
  | nd s ix d => exact h
  | bin op a b => exact h.2.2
  | _ => exact h.2

/-- What is known of a program that has been evaluated. -/
theorem Step.good {e : Prog V} {r : Except PyErr (SpVal V)} {R : PyRes (PyObj V) → Prop}
    (h : Step r e.check e.bound R) (hs : e.Small) {v : SpVal V} (hr : r = .ok v) :
    v.Good ∧ e.check = .ok v.ty ∧ v.nnz ≤ e.bound := by
  have h1 := h.1
  have hf := Prog.small_fits hs
  unfold Prog.Fits at hf
  cases hc : e.check with
  | error x => rw [hc] at h1; rw [show r = .error x from h1] at hr; cases hr
  | ok τ =>
    rw [hc] at h1 hf
    obtain ⟨w, e1, hv, ht, hn⟩ := h1
    rw [hr] at e1; cases e1
    exact ⟨⟨hv, by rw [ht]; exact Ty.SizeOk.mono hf hn⟩, by rw [ht], hn⟩

/-- One more method call. -/
theorem Step.then {e : Prog V} {env : PyEnv V} (ih : Step (e.value env) e.check e.bound (e.Eval env)) (hs : e.Small)
    {f : SpVal V → Except PyErr (SpVal V)} {g : Ty → Except PyErr Ty} {b : Nat} {M : PyObj V → PyRes (PyObj V) → Prop}
    (h : ∀ v, v.Good → e.check = .ok v.ty → v.nnz ≤ e.bound → Step (f v) (g v.ty) b (M v.obj)) :
    Step ((e.value env).bind f) (e.check.bind g) b (fun out => ∃ oa, e.Eval env oa ∧ oa.Then M out) := by
  have hR : ∀ out, (∃ oa, e.Eval env oa ∧ oa.Then M out) ↔ (resObj (e.value env)).Then M out := by
    intro out; simp only [ih.2, exists_eq_left]
  cases hv : e.value env with
  | error x =>
    have h1 := ih.1
    have hc : e.check = .error x := by
      cases hc : e.check with
      | error y => rw [hc] at h1; rw [show e.value env = .error y from h1] at hv; cases hv; rfl
      | ok τ => rw [hc] at h1; obtain ⟨w, h1, -⟩ := h1; rw [hv] at h1; cases h1
    rw [hc]
    refine .raise fun out => ?_
    rw [hR, hv]; rfl
  | ok v =>
    obtain ⟨h1, h2, h3⟩ := ih.good hs hv
    obtain ⟨g1, g2⟩ := h v h1 h2 h3
    rw [h2]
    refine ⟨g1, fun out => ?_⟩
    show (∃ oa, e.Eval env oa ∧ oa.Then M out) ↔ _
    rw [hR, hv]
    exact g2 out

/-- Every program has exactly one outcome: that of its list-level value, which is as typed. -/
theorem Prog.step {env : PyEnv V} (he : env.Ok) {e : Prog V} (hl : e.LitsOk) (hs : e.Small) :
    Step (e.value env) e.check e.bound (e.Eval env) := by
  induction e with
  | mat f r k ip ix d =>
    obtain ⟨hi, hcsc⟩ := hl
    have hnew : PyRes.ofExcept (PyMat.new f r k ip ix d true) = resOf f (nativeNew f r k ip ix d true) := by
      cases hn : nativeNew f r k ip ix d true with
      | ok c =>
        obtain ⟨-, -, -, h3, h4, h5, h6, h7⟩ := nativeNew_true_ok hi hn
        subst h3 h4 h5 h6 h7
        cases f with
        | csr => unfold PyMat.new; rw [hn, nativeNew_false_of_true hn]; rfl
        | csc => unfold PyMat.new; rw [hn]; rfl
      | error x =>
        cases f with
        | csr => unfold PyMat.new; rw [hn]; rfl
        | csc => obtain ⟨c, hc⟩ := hcsc rfl; rw [hn] at hc; cases hc
    have hR : ∀ out, (Prog.mat f r k ip ix d).Eval env out ↔
        out = (resOf f (nativeNew f r k ip ix d true)).bind fun x => .ret (.mat f x) := by
      intro out; rw [← hnew]; rfl
    cases hn : nativeNew f r k ip ix d true with
    | error x =>
      have e1 : (Prog.mat f r k ip ix d).value env = .error x := by unfold Prog.value; rw [hn]; rfl
      have e2 : (Prog.mat f r k ip ix d).check = .error x := by unfold Prog.check; rw [hn]
      rw [e1, e2]
      refine .raise fun out => ?_
      rw [hR, hn]; rfl
    | ok c =>
      have e1 : (Prog.mat f r k ip ix d).value env = .ok (.mat f c) := by unfold Prog.value; rw [hn]; rfl
      have e2 : (Prog.mat f r k ip ix d).check = .ok (.mat f r.toNat k.toNat) := by unfold Prog.check; rw [hn]
      obtain ⟨hw, -, -, h3, h4, -, -, h7⟩ := nativeNew_true_ok hi hn
      rw [e1, e2]
      refine .ret hw ?_ ?_ fun out => ?_
      · show Ty.mat f _ _ = _; rw [h3, h4]; rfl
      · show c.data.length ≤ d.length; rw [h7]
      · rw [hR, hn]; rfl
  | coo r k row col d =>
    obtain ⟨h1, h2, hw, hi⟩ := hl
    have hg : (SpVal.coo (Coo.mk r.toNat k.toNat row col d)).Good := ⟨⟨hw, hi⟩, hs⟩
    refine .ret ⟨hw, hi⟩ rfl (Nat.le_refl _) fun out => ?_
    show out = .ret (.coo (PyCoo.new r k row col d true)) ↔ _
    have : PyCoo.new r k row col d true = PyCoo.of ⟨r.toNat, k.toNat, row, col, d⟩ := by
      have e1 : (r.toNat : Int) = r := by omega
      have e2 : (k.toNat : Int) = k := by omega
      have hnat : nativeCoo r k row col d true = .ok ⟨r.toNat, k.toNat, row, col, d⟩ := by
        have := nativeCoo_of hg
        dsimp only at this
        rw [e1, e2] at this
        unfold nativeCoo at this ⊢
        cases hr : pyUsize r with
        | error x => rw [hr] at this; cases this
        | ok r' =>
          cases hk : pyUsize k with
          | error x => rw [hr, hk] at this; cases this
          | ok k' =>
            obtain ⟨h5, -⟩ := pyUsize_ok hr
            obtain ⟨h6, -⟩ := pyUsize_ok hk
            have h5' : r' = r.toNat := by omega
            have h6' : k' = k.toNat := by omega
            subst h5' h6'
            show (Coo.fromParts r.toNat k.toNat row col d true).mapError _ = _
            rw [(coo_fromParts_iff _ _ _ _ _ _).2 ⟨rfl, hw⟩]
            rfl
      unfold PyCoo.new PyCoo.of
      rw [hnat]
      simp only [e1, e2]
      rfl
    rw [this]; rfl
  | nd s ix d =>
    obtain ⟨h1, hw, hi⟩ := hl
    refine .ret ⟨hw, hi⟩ rfl (Nat.le_refl _) fun out => ?_
    show out = (PyRes.ofExcept (PyNd.new s ix d)).bind _ ↔ _
    have hsh : s = (s.map Int.toNat).map Int.ofNat := by
      rw [List.map_map]
      conv_lhs => rw [← List.map_id s]
      apply List.map_congr_left
      intro x hx
      have := h1 x hx
      show x = ((x.toNat : Nat) : Int)
      omega
    have := pyNd_new_any (a := ⟨s.map Int.toNat, ix, d⟩) hw.rank hw.length
    dsimp only at this
    rw [← hsh] at this
    rw [this]; rfl
  | un op a ih =>
    have := (ih hl hs.1).then hs.1 (f := fun v => .ok (v.un op)) (g := .ok) (b := a.bound) (M := UnMethod op)
      fun v h1 _ h3 => (step_un op h1).mono h3
    have e1 : (Prog.un op a).value env = (a.value env).bind (fun v => .ok (v.un op)) := by
      show (a.value env).map _ = _; cases a.value env <;> rfl
    have e2 : (Prog.un op a).check = a.check.bind .ok := by
      show a.check = _; cases a.check <;> rfl
    rw [e1, e2]
    exact this
  | bin op a b iha ihb =>
    have iha := iha hl.1 hs.1
    have ihb := ihb hl.2 hs.2.1
    have hfit := hs.2.2
    unfold Prog.Fits at hfit
    refine Step.then iha hs.1 (f := fun v => (b.value env).bind fun w => v.bin env op w)
      (g := fun τ => b.check.bind fun σ => Ty.bin op τ σ) fun v hv hvt hvn => ?_
    refine Step.then ihb hs.2.1 (f := fun w => v.bin env op w) (g := fun σ => Ty.bin op v.ty σ)
      (M := fun y out => BinObj env op v.obj y out) fun w hw hwt hwn => ?_
    have hbound : (Prog.bin op a b).bound = binBound v.ty a.bound b.bound := by
      show (match a.check with | .ok (.nd _) => _ | _ => _) = _
      rw [hvt]
      cases v <;> rfl
    rw [hbound]
    refine step_bin he op hv hw hvn hwn fun τ hτ => ?_
    have hc : (Prog.bin op a b).check = .ok τ := by
      show (a.check.bind fun x => b.check.bind fun y => Ty.bin op x y) = _
      rw [hvt, hwt]; exact hτ
    rw [hc, hbound] at hfit
    exact hfit
  | scalar op a α ih =>
    exact (ih hl hs.1).then hs.1 (M := fun x out => ScalarMethod op x α out) fun v h1 _ h3 => (step_scalar op α h1).mono h3
  | left op α a ih => exact (ih hl hs.1).then hs.1 fun v h1 _ h3 => (step_left op α h1).mono h3
  | T a ih => exact (ih hl hs.1).then hs.1 fun v h1 _ h3 => (step_T he h1).mono h3
  | prune eps a ih => exact (ih hl hs.1).then hs.1 fun v h1 _ h3 => (step_prune env eps h1).mono h3
  | elimZeros a ih => exact (ih hl hs.1).then hs.1 fun v h1 _ h3 => (step_prune env 0 h1).mono h3
  | ndop op arg a ih =>
    refine (ih hl hs.1).then hs.1 fun v h1 h2 h3 => (step_ndop he op arg h1 fun τ hτ => ?_).mono h3
    have hfit := hs.2
    unfold Prog.Fits at hfit
    have hc : (Prog.ndop op arg a).check = .ok τ := by
      show a.check.bind _ = _; rw [h2]; exact hτ
    rw [hc] at hfit
    exact Ty.SizeOk.mono hfit h3
  | mode f axis a ih =>
    refine (ih hl hs.1).then hs.1 fun v h1 h2 h3 => (step_mode he f axis h1 fun τ hτ => ?_).mono h3
    have hfit := hs.2
    unfold Prog.Fits at hfit
    have hc : (Prog.mode f axis a).check = .ok τ := by
      show a.check.bind _ = _; rw [h2]; exact hτ
    rw [hc] at hfit
    exact Ty.SizeOk.mono hfit h3

end
end Lacuna
