import Verif.Spec.PyRebind
import Verif.Props.PySession
/-
C103: assignments to attributes in a session.  What every statement does after any assignments: no undefined behaviour as
long as they keep lengths and structure, which functions see the new array and which still the values at construction,
that the object leaves the arrays it shared before, that an array of values of another length makes `remainder(x, y)` raise, and that
nothing stops an assignment of pointers that makes `remainder(x, x)` read outside the arrays.
-/
set_option linter.unusedSectionVars false

namespace Lacuna
variable {V : Type} [Zero V] [One V] [Add V] [Sub V] [Mul V] [Div V] [Neg V] [BEq V] [NatCast V] [HasFinite V]
  [HasFloor V] [HasPowf V] [HasAbs V] [HasLt V] [HasNan V]

/-! ### the invariant -/

theorem objs_rebind (s : Sess V) (x : Nat) (w : Attr) (k : Nat) :
    (s.rebind x w).objs[k]? = s.objs[k]?.map fun o => if k = x then o.rebind w else o := by
  show (s.objs.modify x _)[k]? = _
  rw [List.getElem?_modify]
  simp only [eq_comm (a := x)]
  rfl

theorem get_rebind (s : Sess V) (x : Nat) (w : Attr) (o : RefObj V) : o.get (s.rebind x w) = o.get s := by
  cases o <;> rfl
theorem now_rebind (s : Sess V) (x : Nat) (w : Attr) (o : RefObj V) : o.now (s.rebind x w) = o.now s := by
  cases o with
  | mat f _ _ _ _ _ _ => cases f <;> rfl
  | _ => rfl
theorem snap_rebind (s : Sess V) (x : Nat) (w : Attr) (o : RefObj V) : o.snap (s.rebind x w) = o.snap s := by
  cases o with
  | mat f _ _ _ _ _ h => cases h <;> cases f <;> rfl
  | coo _ _ _ _ _ h => cases h <;> rfl
  | nd _ _ _ => rfl

theorem native_rebind (o : RefObj V) (w : Attr) : (o.rebind w).native = o.native := by
  cases o with
  | mat _ _ _ _ _ _ _ =>
    cases w with
    | shape l => match l with | [] | [_] | [_, _] | _ :: _ :: _ :: _ => rfl
    | _ => rfl
  | coo _ _ _ _ _ _ =>
    cases w with
    | shape l => match l with | [] | [_] | [_, _] | _ :: _ :: _ :: _ => rfl
    | _ => rfl
  | nd _ _ _ => cases w <;> rfl

theorem copied_rebind (o : RefObj V) (w : Attr) : (o.rebind w).copied = o.copied := by
  cases o with
  | mat _ _ _ _ _ _ _ =>
    cases w with
    | shape l => match l with | [] | [_] | [_, _] | _ :: _ :: _ :: _ => rfl
    | _ => rfl
  | coo _ _ _ _ _ _ =>
    cases w with
    | shape l => match l with | [] | [_] | [_, _] | _ :: _ :: _ :: _ => rfl
    | _ => rfl
  | nd _ _ _ => cases w <;> rfl

theorem ok_of_arrays {s s' : Sess V} (hi : s'.ints = s.ints) (hf : s'.floats = s.floats) {o : RefObj V} (h : o.Ok s) : o.Ok s' := by
  cases o <;> (unfold RefObj.Ok; rw [hi, hf]; exact h)

theorem ints_defined {s : Sess V} {a : Nat} (h : a < s.ints.length) : s.ints[a]? = some (s.int a) := by
  unfold Sess.int; rw [List.getD_eq_getElem?_getD, List.getElem?_eq_getElem h]; rfl
theorem floats_defined {s : Sess V} {a : Nat} (h : a < s.floats.length) : s.floats[a]? = some (s.float a) := by
  unfold Sess.float; rw [List.getD_eq_getElem?_getD, List.getElem?_eq_getElem h]; rfl

theorem ok_mat {s : Sess V} {f : Fmt} {a : Comp V} (hg : (SpVal.mat f a).Good) {p i d : Nat} {P I : List Int} {D : List V}
    (hp : s.ints[p]? = some P) (hi : s.ints[i]? = some I) (hD : s.floats[d]? = some D)
    (hv : (RefObj.now s (.mat f (f.rows a) (f.cols a) p i d (some a))).Good) :
    (RefObj.mat f (f.rows a) (f.cols a) p i d (some a)).Ok s := by
  refine ⟨a, rfl, hg, rfl, rfl, P, I, D, hp, hi, hD, ?_⟩
  have e : RefObj.now s (.mat f (f.rows a) (f.cols a) p i d (some a)) = .mat f ⟨a.n, a.m, P, I, D⟩ := by
    cases f <;>
    · show SpVal.mat _ _ = SpVal.mat _ _
      rw [int_of hp, int_of hi, float_of hD]
      simp [Fmt.rows, Fmt.cols]
  rw [← e]; exact hv

theorem ok_coo {s : Sess V} {a : Coo V} (hg : (SpVal.coo a).Good) {i j d : Nat} {I J : List Int} {D : List V}
    (hp : s.ints[i]? = some I) (hi : s.ints[j]? = some J) (hD : s.floats[d]? = some D)
    (hv : (RefObj.now s (.coo a.nrows a.ncols i j d (some a))).Good) :
    (RefObj.coo a.nrows a.ncols i j d (some a)).Ok s := by
  refine ⟨a, rfl, hg, rfl, rfl, I, J, D, hp, hi, hD, ?_⟩
  have e : RefObj.now s (.coo a.nrows a.ncols i j d (some a)) = .coo ⟨a.nrows, a.ncols, I, J, D⟩ := by
    show SpVal.coo _ = SpVal.coo _
    rw [int_of hp, int_of hi, float_of hD]
    simp
  rw [← e]; exact hv

theorem ok_nd {s : Sess V} {l : List Int} {b e : Nat} (hpos : ∀ n ∈ l, 0 ≤ n) (hb : s.ints[b]? = some (s.int b))
    (he : s.floats[e]? = some (s.float e)) (hv : (RefObj.now s (.nd l b e)).Good) : (RefObj.nd (V := V) l b e).Ok s := by
  refine ⟨⟨l.map Int.toNat, s.int b, s.float e⟩, hv, ?_, hb, he⟩
  show l = (l.map Int.toNat).map Int.ofNat
  rw [List.map_map]
  refine (List.map_id l).symm.trans (List.map_congr_left fun n hn => ?_)
  have := hpos n hn
  show n = ((n.toNat : Nat) : Int)
  omega

theorem ofNat_nonneg (l : List Nat) : ∀ n ∈ l.map Int.ofNat, 0 ≤ n := by
  intro n hn
  obtain ⟨m, -, rfl⟩ := List.mem_map.1 hn
  exact Int.natCast_nonneg m

/-- An assignment as assumed keeps the object all right. -/
theorem RefObj.Ok.rebind {s : Sess V} {o : RefObj V} (h : o.Ok s) {w : Attr} (hd : w.Defined s) (hk : o.Keeps s w) :
    (o.rebind w).Ok s := by
  obtain ⟨hv, hz, hk⟩ := hk
  have hv : ((o.rebind w).now s).Good := ⟨hv, hz⟩
  cases o with
  | mat f r c p i d hd' =>
    have hsh : w.isShape = false := hk
    have h0 := h
    obtain ⟨a, rfl, hg, rfl, rfl, P, I, D, hp, hi, hD, -⟩ := h
    cases w with
    | shape l => cases hsh
    | indptr b => exact ok_mat hg (ints_defined hd) hi hD hv
    | indices b => exact ok_mat hg hp (ints_defined hd) hD hv
    | row b => exact h0
    | col b => exact h0
    | data b => exact ok_mat hg hp hi (floats_defined hd) hv
  | coo r c i j d hd' =>
    have hsh : w.isShape = false := hk
    have h0 := h
    obtain ⟨a, rfl, hg, rfl, rfl, P, I, D, hp, hi, hD, -⟩ := h
    cases w with
    | shape l => cases hsh
    | row b => exact ok_coo hg (ints_defined hd) hi hD hv
    | col b => exact ok_coo hg hp (ints_defined hd) hD hv
    | indptr b => exact h0
    | indices b => exact h0
    | data b => exact ok_coo hg hp hi (floats_defined hd) hv
  | nd sh i d =>
    have hsh : ∀ l, w = .shape l → ∀ n ∈ l, 0 ≤ n := hk
    have h0 := h
    obtain ⟨a, hg, rfl, hi, hD⟩ := h
    have hpos := ofNat_nonneg a.shape
    have hi' : s.ints[i]? = some (s.int i) := by rw [hi, int_of hi]
    have hD' : s.floats[d]? = some (s.float d) := by rw [hD, float_of hD]
    cases w with
    | shape l =>
      have e : (RefObj.nd (V := V) (a.shape.map Int.ofNat) i d).rebind (.shape l) =
        .nd (if l.length = (a.shape.map Int.ofNat).length then l else a.shape.map Int.ofNat) i d := rfl
      rw [e] at hv ⊢
      refine ok_nd ?_ hi' hD' hv
      split
      · exact hsh l rfl
      · exact hpos
    | indices b => exact ok_nd hpos (ints_defined hd) hD' hv
    | data b => exact ok_nd hpos hi' (floats_defined hd) hv
    | indptr b => exact h0
    | row b => exact h0
    | col b => exact h0

theorem ints_set {s : Sess V} {a : Nat} {l : List Int} {b : Nat} {m : List Int} (h : s.ints[b]? = some m) :
    (s.ints.set a l)[b]? = some (if b = a then l else m) := by
  have hb := (List.getElem?_eq_some_iff.1 h).1
  rw [List.getElem?_set]
  by_cases e : b = a
  · subst e; rw [if_pos rfl, if_pos hb, if_pos rfl]
  · rw [if_neg (fun h => e h.symm), if_neg e, h]

/-- A write to an array of indices changes neither class and shape nor the number of entries. -/
theorem now_setInts (s : Sess V) (a : Nat) (l : List Int) (o : RefObj V) :
    (o.now { s with ints := s.ints.set a l }).ty = (o.now s).ty ∧ (o.now { s with ints := s.ints.set a l }).nnz = (o.now s).nnz := by
  cases o with
  | mat f _ _ _ _ _ _ => cases f <;> exact ⟨rfl, rfl⟩
  | _ => exact ⟨rfl, rfl⟩

/-- A write to an array of indices that leaves the object valid keeps it all right. -/
theorem RefObj.Ok.setInts {s : Sess V} {o : RefObj V} (h : o.Ok s) {a : Nat} {l : List Int}
    (hv : (o.now { s with ints := s.ints.set a l }).Valid) : o.Ok { s with ints := s.ints.set a l } := by
  have hv : (o.now { s with ints := s.ints.set a l }).Good := by
    refine ⟨hv, ?_⟩
    rw [(now_setInts s a l o).1, (now_setInts s a l o).2]
    exact (h.good false).2
  cases o with
  | mat f r c p i d hd' =>
    obtain ⟨b, rfl, hg, rfl, rfl, P, I, D, hp, hi, hD, -⟩ := h
    exact ok_mat hg (ints_set hp) (ints_set hi) hD hv
  | coo r c i j d hd' =>
    obtain ⟨b, rfl, hg, rfl, rfl, P, I, D, hp, hi, hD, -⟩ := h
    exact ok_coo hg (ints_set hp) (ints_set hi) hD hv
  | nd sh i d =>
    obtain ⟨b, hg, rfl, hi, hD⟩ := h
    refine ok_nd (ofNat_nonneg b.shape) (ints_defined (s := { s with ints := s.ints.set a l }) ?_)
      (floats_defined (s := { s with ints := s.ints.set a l }) (List.getElem?_eq_some_iff.1 hD).1) hv
    exact (List.getElem?_eq_some_iff.1 (ints_set (a := a) (l := l) hi)).1

theorem step_setInts {env : PyEnv V} {s s' : Sess V} {a : Nat} {l : List Int} (h : s.Step env (.setInts a l) (.ret s')) :
    s' = { s with ints := s.ints.set a l } := by
  obtain ⟨old, ho, h⟩ := h
  by_cases hl : l.length = old.length
  · rw [if_pos hl] at h; cases h; rfl
  · rw [if_neg hl] at h; cases h

theorem rebind_inv {s : Sess V} (hI : s.Inv) {x : Nat} {w : Attr} (hd : w.Defined s)
    (hk : ∀ o, s.objs[x]? = some o → o.Keeps s w) : (s.rebind x w).Inv := by
  intro o ho
  obtain ⟨k, hk'⟩ := List.mem_iff_getElem?.1 ho
  rw [objs_rebind] at hk'
  obtain ⟨o', ho', rfl⟩ := Option.map_eq_some_iff.1 hk'
  have hok := hI o' (List.mem_iff_getElem?.2 ⟨k, ho'⟩)
  refine ok_of_arrays (s := s) rfl rfl ?_
  split
  · rename_i h; subst h; exact hok.rebind hd (hk o' ho')
  · exact hok

theorem tame_run {s : Sess V} {st : Stmt V} (hst : ¬ ∃ a l, st = .setInts a l) (ht : s.TameCmd (.run st)) : s.Tame st := by
  cases st with
  | setInts a l => exact absurd ⟨a, l, rfl⟩ hst
  | _ => exact ht

theorem tame_cmd {s : Sess V} {st : Stmt V} (ht : s.Tame st) : s.TameCmd (.run st) := by
  cases st with
  | setInts a l => exact False.elim ht
  | _ => exact ht

theorem visits_inv {s : Sess V} (h : Sess.Visits PyEnv.Ok Sess.TameCmd s) : s.Inv := by
  induction h with
  | start => intro o ho; cases ho
  | @step env s s' c _ he ht hs ih =>
    cases c with
    | run st =>
      by_cases hst : ∃ a l, st = .setInts a l
      · obtain ⟨a, l, rfl⟩ := hst
        cases step_setInts (env := env) hs
        exact fun o ho => (ih o ho).setInts (ht o ho)
      · exact step_inv he ih (tame_run hst ht) hs
    | rebind x w =>
      obtain ⟨-, hd, e⟩ := hs
      cases e
      exact rebind_inv ih hd ht

/-! ### What statements do after assignments -/

/-- Both contents of every object are valid, of the same class and shape. -/
theorem rebind_valid {s : Sess V} (hr : Sess.Visits PyEnv.Ok Sess.TameCmd s) {o : RefObj V} (ho : o ∈ s.objs) :
    (o.now s).Valid ∧ (o.snap s).Valid ∧ (o.snap s).ty = (o.now s).ty := by
  have hok := visits_inv hr o ho
  exact ⟨(hok.good false).1, (hok.good true).1, hok.ty_eq true⟩

/-- Every statement and every assignment has exactly one outcome, a new state or an exception; no undefined behaviour. -/
theorem rebind_total {env : PyEnv V} (he : env.Ok) {s : Sess V} (hr : Sess.Visits PyEnv.Ok Sess.TameCmd s) {c : Cmd V}
    (ht : s.TameCmd c) (hd : s.DefinedCmd c) :
    (∃ s', ∀ out, s.Do env c out ↔ out = .ret s') ∨ (∃ e, ∀ out, s.Do env c out ↔ out = .raises e) := by
  have hI := visits_inv hr
  cases c with
  | rebind x w => exact .inl ⟨_, fun out => ⟨fun h => h.2.2, fun h => ⟨hd.1, hd.2, h⟩⟩⟩
  | run st =>
    have hd : s.Defined st := hd
    show (∃ s', ∀ out, s.Step env st out ↔ _) ∨ (∃ e, ∀ out, s.Step env st out ↔ _)
    by_cases hst : ∃ a l, st = .setInts a l
    · obtain ⟨a, l, rfl⟩ := hst
      have e : s.ints[a]? = some _ := List.getElem?_eq_getElem hd
      have h : ∀ out, s.Step env (.setInts a l) out ↔ out = if l.length = (s.ints[a]'hd).length then
          .ret { s with ints := s.ints.set a l } else .raises .valueError := by
        intro out
        show (∃ old, _) ↔ _
        simp only [e, Option.some.injEq, exists_eq_left']
      by_cases hl : l.length = (s.ints[a]'hd).length
      · simp only [hl, if_true] at h; exact .inl ⟨_, h⟩
      · simp only [hl, if_false] at h; exact .inr ⟨_, h⟩
    have ht := tame_run hst ht
    rcases prog_isSome hd with ⟨p, hp⟩ | ⟨l, rfl⟩ | ⟨l, rfl⟩ | hw
    · rcases step_made he hI ht hd hp with ⟨e, -, h⟩ | ⟨v, s', o, -, -, h, -⟩
      · exact .inr ⟨e, h⟩
      · exact .inl ⟨s', h⟩
    · exact .inl ⟨_, fun _ => Iff.rfl⟩
    · exact .inl ⟨_, fun _ => Iff.rfl⟩
    · cases st with
      | setInts a l => exact ht.elim
      | setFloats a l =>
        have e : s.floats[a]? = some _ := List.getElem?_eq_getElem hd
        have h : ∀ out, s.Step env (.setFloats a l) out ↔ out = if l.length = (s.floats[a]'hd).length then
            .ret { s with floats := s.floats.set a l } else .raises .valueError := by
          intro out
          show (∃ old, _) ↔ _
          simp only [e, Option.some.injEq, exists_eq_left']
        by_cases hl : l.length = (s.floats[a]'hd).length
        · simp only [hl, if_true] at h; exact .inl ⟨_, h⟩
        · simp only [hl, if_false] at h; exact .inr ⟨_, h⟩
      | _ => cases hw

/-- A statement that makes an object still evaluates a program on the contents at construction or the present contents of
the operands (cf. `session_made`). -/
theorem rebind_made {env : PyEnv V} (he : env.Ok) {s : Sess V} (hr : Sess.Visits PyEnv.Ok Sess.TameCmd s) {st : Stmt V}
    (ht : s.Tame st) (hd : s.Defined st) {p : Prog V} (hp : s.prog st = some p) :
    (∀ e, s.Step env st (.raises e) ↔ p.Eval env (.raises e)) ∧
    ∀ x, p.Eval env (.ret x) ↔ ∃ s' o, s.Step env st (.ret s') ∧ s'.objs = s.objs ++ [o] ∧ o.get s' = x ∧
      (o.now s').obj = x ∧ (o.snap s').obj = x ∧ ∀ o' ∈ s.objs, o'.get s' = o'.get s := by
  have hI := visits_inv hr
  obtain ⟨hl, hs⟩ := tame_prog hI ht hd hp
  have hE := (Prog.step he hl hs).2
  rcases step_made he hI ht hd hp with ⟨e, hv, h⟩ | ⟨v, s', o, hv, -, h, hgr, ho, -, e1, e2, e3, -⟩
  · rw [hv] at hE
    have hE : ∀ out, p.Eval env out ↔ out = .raises e := hE
    refine ⟨fun e' => by rw [h, hE]; exact ⟨fun h => by cases h; rfl, fun h => by cases h; rfl⟩, fun x => ?_⟩
    rw [hE]
    constructor
    · intro h; cases h
    · rintro ⟨s', o, h1, -⟩; cases (h _).1 h1
  · rw [hv] at hE
    have hE : ∀ out, p.Eval env out ↔ out = .ret v.obj := hE
    refine ⟨fun e' => by rw [h, hE]; constructor <;> (intro h; cases h), fun x => ?_⟩
    rw [hE]
    constructor
    · intro hx
      cases hx
      refine ⟨s', o, (h _).2 rfl, ho, e1, by rw [e2], by rw [e3], fun o' ho' => ?_⟩
      exact (hI o' ho').get_eq (fun _ _ e => hgr.ints e) (fun _ e => hgr.floats e)
    · rintro ⟨s'', o', h1, h2, rfl, -⟩
      cases (h _).1 h1
      rw [ho] at h2
      have : o = o' := by simpa using h2
      subst this
      rw [e1]

/-! ### What an assignment changes -/

/-- `x.data = a`, whatever the array: the object holds `a` afterwards, its present contents have the values of `a` and are
otherwise as before, and the native copy is the old one.  Every other object, and every array, is as before. -/
theorem rebind_data {env : PyEnv V} {s s' : Sess V} {x a : Nat} (h : s.Do env (.rebind x (.data a)) (.ret s')) {k : Nat}
    {o : RefObj V} (ho : s.objs[k]? = some o) :
    s'.ints = s.ints ∧ s'.floats = s.floats ∧ s'.objs.length = s.objs.length ∧ ∃ o', s'.objs[k]? = some o' ∧
      if k = x then o'.dataRef = a ∧ o'.now s' = (o.now s).withData (s.float a) ∧ (o.copied = true → o'.snap s' = o.snap s)
      else o' = o ∧ o'.get s' = o.get s ∧ o'.now s' = o.now s ∧ o'.snap s' = o.snap s := by
  obtain ⟨-, -, e⟩ := h
  cases e
  refine ⟨rfl, rfl, List.length_modify .., if k = x then o.rebind (.data a) else o, by rw [objs_rebind, ho]; rfl, ?_⟩
  by_cases hk : k = x
  · rw [if_pos hk, if_pos hk]
    refine ⟨by cases o <;> rfl, ?_, fun hc => ?_⟩
    · rw [now_rebind]
      cases o with
      | mat f _ _ _ _ _ _ => cases f <;> rfl
      | coo _ _ _ _ _ _ => rfl
      | nd _ _ _ => rfl
    · rw [snap_rebind]
      cases o with
      | mat f _ _ _ _ _ hd => cases hd with | none => cases hc | some _ => rfl
      | coo _ _ _ _ _ hd => cases hd with | none => cases hc | some _ => rfl
      | nd _ _ _ => cases hc
  · rw [if_neg hk, if_neg hk]
    exact ⟨rfl, get_rebind .., now_rebind .., snap_rebind ..⟩

/-- After `x.w = v` the attribute `w` of `x` holds `v`, and the other attributes of `x` and those of every other object are as
before.  Of a shape it is assumed that it has as many lengths as the old one. -/
theorem rebind_attr {env : PyEnv V} {s s' : Sess V} {x : Nat} {w : Attr} (h : s.Do env (.rebind x w) (.ret s')) {k : Nat} {o : RefObj V}
    (ho : s.objs[k]? = some o) (hsh : ∀ l, w = .shape l → ∀ old, (o.get s).attr .shape = some (.ints old) → l.length = old.length) :
    ∃ o', s'.objs[k]? = some o' ∧ ∀ n, (o'.get s').attr n =
      if k = x ∧ n = w.name ∧ ((o.get s).attr n).isSome then some (w.value s) else (o.get s).attr n := by
  obtain ⟨-, -, e⟩ := h
  cases e
  refine ⟨if k = x then o.rebind w else o, by rw [objs_rebind, ho]; rfl, fun n => ?_⟩
  rw [get_rebind]
  by_cases hk : k = x
  · rw [if_pos hk]
    simp only [hk, true_and]
    cases w with
    | shape l =>
      have hl := hsh l rfl
      cases o with
      | nd sh i d => cases n <;> simp [RefObj.rebind, RefObj.get, PyObj.attr, Attr.name, Attr.value, hl sh rfl]
      | mat f r c p i d h =>
        have h2 := hl [r, c] rfl
        match l, h2 with
        | [a, b], _ => cases n <;> rfl
      | coo r c i j d h =>
        have h2 := hl [r, c] rfl
        match l, h2 with
        | [a, b], _ => cases n <;> rfl
    | _ => cases o <;> cases n <;> rfl
  · simp [hk]

/-- After `x.data = a` the object no longer shares the array it held before: a write to another array `b` does not reach it,
and a write to `a` does. -/
theorem rebind_unshares {env env' : PyEnv V} (he : env.Ok) {s s' s'' : Sess V} (hr : Sess.Visits PyEnv.Ok Sess.TameCmd s) {x a b : Nat}
    (ht : s.TameCmd (.rebind x (.data a))) (h : s.Do env (.rebind x (.data a)) (.ret s')) {l : List V}
    (h' : s'.Do env' (.run (.setFloats b l)) (.ret s'')) {o : RefObj V} (ho : s.objs[x]? = some o) :
    ∃ o', s''.objs[x]? = some o' ∧ o'.now s'' = (o.now s).withData (if b = a then l else s.float a) ∧
      (o.native = true → o'.snap s'' = o.snap s) := by
  obtain ⟨-, -, -, o', ho', h1⟩ := rebind_data h ho
  rw [if_pos rfl] at h1
  obtain ⟨hda, hnow, hsnap⟩ := h1
  have hI := visits_inv hr
  have hI' := visits_inv (.step hr he ht h)
  have hok := hI o (List.mem_iff_getElem?.2 ⟨x, ho⟩)
  have hok' := hI' o' (List.mem_iff_getElem?.2 ⟨x, ho'⟩)
  obtain ⟨old, e, hl, rfl⟩ := step_setFloats (env := env') h'
  have hset := floats_set (l := l) e
  refine ⟨o', ho', ?_, fun hn => ?_⟩
  · by_cases hb : b = a
    · rw [if_pos hb]
      have hfl : (s'.floats.set b l)[o'.dataRef]? = some l := by rw [hset, if_pos (by rw [hda, hb])]
      have h2 : o'.now { s' with floats := s'.floats.set b l } = (o'.now s').withData l := by
        cases o' with
        | mat f r c p i d hd =>
          cases f <;>
          · show SpVal.mat _ ⟨_, _, s'.int p, s'.int i, (s'.floats.set b l).getD d []⟩ = SpVal.mat _ ⟨_, _, s'.int p, s'.int i, l⟩
            rw [List.getD_eq_getElem?_getD, show (s'.floats.set b l)[d]? = some l from hfl]; rfl
        | coo r c i j d hd =>
          show SpVal.coo ⟨_, _, s'.int i, s'.int j, (s'.floats.set b l).getD d []⟩ = SpVal.coo ⟨_, _, s'.int i, s'.int j, l⟩
          rw [List.getD_eq_getElem?_getD, show (s'.floats.set b l)[d]? = some l from hfl]; rfl
        | nd sh i d =>
          show SpVal.nd ⟨_, s'.int i, (s'.floats.set b l).getD d []⟩ = SpVal.nd ⟨_, s'.int i, l⟩
          rw [List.getD_eq_getElem?_getD, show (s'.floats.set b l)[d]? = some l from hfl]; rfl
      rw [h2, hnow]
      cases o.now s <;> rfl
    · rw [if_neg hb, ← hnow]
      refine hok'.now_eq (s' := { s' with floats := s'.floats.set b l }) (fun _ _ e => e) (fun m hm => ?_)
      show (s'.floats.set b l)[o'.dataRef]? = _
      rw [hset, if_neg (by rw [hda]; exact fun h => hb h.symm), hm]
  · have hc : o.copied = true := by rw [hok.copied_eq, hn]
    have hc' : o'.copied = true := by
      obtain ⟨-, -, e⟩ := h
      cases e
      rw [objs_rebind, ho] at ho'
      simp only [Option.map_some, if_true, Option.some.injEq] at ho'
      rw [← ho', copied_rebind, hc]
    rw [RefObj.snap_eq_of_copied hc' s', hsnap hc]

/-- A write to an array of indices changes the present contents of the objects that hold it only, and neither their shape nor
their values; the contents at construction of an object with a native copy stay. -/
theorem rebind_index_write {env : PyEnv V} {s s' : Sess V} (hr : Sess.Visits PyEnv.Ok Sess.TameCmd s) {a : Nat} {l : List Int}
    (h : s.Do env (.run (.setInts a l)) (.ret s')) {o : RefObj V} (ho : o ∈ s.objs) :
    s'.objs = s.objs ∧ s'.floats = s.floats ∧ (∀ b, s'.int b = if b = a then l else s.int b) ∧
      (a ∉ o.indexRefs → o.get s' = o.get s ∧ o.now s' = o.now s) ∧
      (o.now s').ty = (o.now s).ty ∧ (o.native = true → o.snap s' = o.snap s) := by
  have hok := visits_inv hr o ho
  obtain ⟨old, ha, -⟩ := id h
  have e := step_setInts (env := env) h
  subst e
  have hint : ∀ b, Sess.int { s with ints := s.ints.set a l } b = if b = a then l else s.int b := by
    intro b
    have ha' := (List.getElem?_eq_some_iff.1 ha).1
    show (s.ints.set a l).getD b [] = _
    rw [List.getD_eq_getElem?_getD, List.getElem?_set]
    by_cases hb : b = a
    · subst hb; rw [if_pos rfl, if_pos ha', if_pos rfl]; rfl
    · rw [if_neg (fun h => hb h.symm), if_neg hb]
      show _ = s.ints.getD b []
      rw [List.getD_eq_getElem?_getD]
  refine ⟨rfl, rfl, hint, fun hn => ?_, (now_setInts s a l o).1, fun hn => RefObj.snap_eq_of_copied (by rw [hok.copied_eq, hn]) _ _⟩
  cases o with
  | mat f r c p i d hd =>
    simp only [RefObj.indexRefs, List.mem_cons, List.not_mem_nil, or_false, not_or] at hn
    have h1 := hint p
    have h2 := hint i
    rw [if_neg (fun h => hn.1 h.symm)] at h1
    rw [if_neg (fun h => hn.2 h.symm)] at h2
    cases f <;> exact ⟨by show PyObj.mat _ _ = PyObj.mat _ _; rw [h1, h2]; rfl, by show SpVal.mat _ _ = SpVal.mat _ _; rw [h1, h2]; rfl⟩
  | coo r c i j d hd =>
    simp only [RefObj.indexRefs, List.mem_cons, List.not_mem_nil, or_false, not_or] at hn
    have h1 := hint i
    have h2 := hint j
    rw [if_neg (fun h => hn.1 h.symm)] at h1
    rw [if_neg (fun h => hn.2 h.symm)] at h2
    exact ⟨by show PyObj.coo _ = PyObj.coo _; rw [h1, h2]; rfl, by show SpVal.coo _ = SpVal.coo _; rw [h1, h2]; rfl⟩
  | nd sh i d =>
    simp only [RefObj.indexRefs, List.mem_cons, List.not_mem_nil, or_false] at hn
    have h1 := hint i
    rw [if_neg (fun h => hn h.symm)] at h1
    exact ⟨by show PyObj.nd _ = PyObj.nd _; rw [h1]; rfl, by show SpVal.nd _ = SpVal.nd _; rw [h1]; rfl⟩

/-- Functions that use the native copy do not notice that arrays were replaced, whatever the new arrays hold (indices
included): their outcomes are those at construction. -/
theorem rebind_frozen [HasFma V] [HasMinMax V] [HasSqrt V] {env : PyEnv V} (search : List Int → Int → Nat) {o : RefObj V}
    (hc : o.copied = true) (ws : List Attr) (hw : ∀ w ∈ ws, w.isShape = false) (s s' : Sess V) :
    (∀ (fn : Fn V) out, fn.frozen = true → (fn.Call env ((ws.foldl RefObj.rebind o).get s') out ↔ fn.Call env (o.get s) out)) ∧
    (∀ (q : Query V) out, q.frozen = true → (q.Ask env search ((ws.foldl RefObj.rebind o).get s') out ↔ q.Ask env search (o.get s) out)) ∧
    ∀ (y : RefObj V) (op : BinOp) out, y.copied = true → op.frozen = true →
      (BinObj env op ((ws.foldl RefObj.rebind o).get s') (y.get s') out ↔ BinObj env op (o.get s) (y.get s) out) := by
  have key : ∀ (ws : List Attr) (o : RefObj V), o.copied = true → (∀ w ∈ ws, w.isShape = false) →
      SameCopy ((ws.foldl RefObj.rebind o).get s') (o.get s) := by
    intro ws
    induction ws with
    | nil => intro o hc _; exact sameCopy hc s' s
    | cons w ws ih =>
      intro o hc hw
      have h1 := ih (o.rebind w) (by rw [copied_rebind, hc]) (fun w' h => hw w' (List.mem_cons_of_mem _ h))
      have hsh := hw w List.mem_cons_self
      rw [List.foldl_cons]
      cases o with
      | mat f r c p i d hd =>
        cases hd with
        | none => cases hc
        | some a =>
          generalize (ws.foldl RefObj.rebind ((RefObj.mat f r c p i d (some a)).rebind w)).get s' = z at h1
          cases w with
          | shape l => cases hsh
          | _ => cases h1; exact .mat ..
      | coo r c i j d hd =>
        cases hd with
        | none => cases hc
        | some a =>
          generalize (ws.foldl RefObj.rebind ((RefObj.coo r c i j d (some a)).rebind w)).get s' = z at h1
          cases w with
          | shape l => cases hsh
          | _ => cases h1; exact .coo ..
      | nd _ _ _ => cases hc
  have h := key ws o hc hw
  exact ⟨fun fn out hf => call_sameCopy h env hf out, fun q out hf => ask_sameCopy h env search hf out,
    fun y op out hy hop => bin_sameCopy h (sameCopy hy s' s) env hop out⟩

section
variable [HasFma V] [HasMinMax V] [HasSqrt V]

/-- Every question is answered from the contents at construction or from the present contents. -/
theorem rebind_ask {env : PyEnv V} (search : List Int → Int → Nat) {s : Sess V} (hr : Sess.Visits PyEnv.Ok Sess.TameCmd s)
    {o : RefObj V} (ho : o ∈ s.objs) (q : Query V) (out : PyRes (Answer V)) :
    q.Ask env search (o.get s) out ↔ q.Ask env search (o.view s q.frozen).obj out := by
  have hok := visits_inv hr o ho
  rw [ask_views hok.views, view_obj]

/-- After any assignment of an array to an attribute of an object with a native copy: `sum`, `mean` and the products that go
through `@` answer as before, every other question as for an object constructed with the new arrays. -/
theorem rebind_stale {env : PyEnv V} (he : env.Ok) (search : List Int → Int → Nat) {s s' : Sess V}
    (hr : Sess.Visits PyEnv.Ok Sess.TameCmd s) {x : Nat} {w : Attr} (ht : s.TameCmd (.rebind x w))
    (h : s.Do env (.rebind x w) (.ret s')) {o : RefObj V} (ho : s.objs[x]? = some o) (hn : o.native = true) :
    s'.objs[x]? = some (o.rebind w) ∧ ∀ (q : Query V) out, q.Ask env search ((o.rebind w).get s') out ↔
      if q.frozen then q.Ask env search (o.get s) out else q.Ask env search ((o.rebind w).now s).obj out := by
  have hr' := Sess.Visits.step hr he ht h
  obtain ⟨-, -, e⟩ := h
  cases e
  have ho' : (s.rebind x w).objs[x]? = some (o.rebind w) := by
    rw [objs_rebind, ho]; simp only [Option.map_some, if_true]
  have hmem := List.mem_iff_getElem?.2 ⟨x, ho⟩
  have hc : o.copied = true := by rw [(visits_inv hr o hmem).copied_eq, hn]
  have hsh : w.isShape = false := by
    obtain ⟨-, -, hk⟩ := ht o ho
    rw [hn] at hk
    exact hk
  refine ⟨ho', fun q out => ?_⟩
  cases hq : q.frozen
  · rw [rebind_ask search hr' (List.mem_iff_getElem?.2 ⟨x, ho'⟩), hq]
    unfold RefObj.view
    simp only [Bool.false_eq_true, if_false, now_rebind]
  · simp only [if_true]
    exact (rebind_frozen search hc [w] (by simpa using hsh) s (s.rebind x w)).2.1 q out hq

end

/-! ### Nothing is validated at the assignment -/

/-- An array of values of another length is noticed when the arrays are used: `remainder(x, y)` and `pow(x, y)` raise `ValueError`, for every
`CSR` or `CSC` object `x` and every object `y` of its class.  (The functions that use the native copy go on, `rebind_frozen`.) -/
theorem rebind_length_raises {env : PyEnv V} {s : Sess V} (hr : Sess.Visits PyEnv.Ok Sess.TameCmd s) {x y a : Nat}
    {f : Fmt} {r c r' c' : Int} {p i d p' i' d' : Nat} {h h' : Option (Comp V)}
    (hx : s.objs[x]? = some (.mat f r c p i d h)) (hy : s.objs[y]? = some (.mat f r' c' p' i' d' h'))
    (hl : (s.float a).length ≠ (s.float d).length) {op : BinOp} (hop : op = .rem ∨ op = .pow) (out : PyRes (Sess V)) :
    (s.rebind x (.data a)).Do env (.run (.bin op x y)) out ↔ out = .raises .valueError := by
  obtain ⟨b, rfl, hg, rfl, rfl, P, I, D, hp, hi, hD, hgw⟩ := visits_inv hr _ (List.mem_iff_getElem?.2 ⟨x, hx⟩)
  have hh := hg.held
  have hw : (⟨b.n, b.m, P, I, D⟩ : Comp V).WF := hgw.1
  have h1 := hh.n_le
  have h2 := hh.m_le
  have hne : I.length ≠ (s.float a).length := by
    have hl' : D.length = I.length := hw.data_length
    rw [float_of hD, hl'] at hl
    exact fun h => hl h.symm
  have hparts : ∀ z : Option (Comp V), PyMat.parts f ⟨f.rows b, f.cols b, s.int p, s.int i, s.float a, z⟩ = .error .valueError := by
    intro z
    rw [int_of hp, int_of hi]
    have hck : ∀ n : Nat, n = b.n → checkParts n b.m P I (s.float a) false =
        .error "indices and data must have equal length" := by
      rintro _ rfl
      unfold checkParts
      have hpl : P.length = b.n + 1 := hw.ptr_length
      rw [if_neg (by omega), if_neg (by rw [hpl]; simp), if_pos hne]
    cases f with
    | csr =>
      show nativeNew .csr (b.n : Int) (b.m : Int) _ _ _ _ = _
      rw [nativeNew_csr (r' := b.n) (c' := b.m) (pyUsize_nat (by omega)) (pyUsize_nat h2)]
      unfold Csr.fromParts
      rw [hck _ rfl]; rfl
    | csc =>
      show nativeNew .csc (b.m : Int) (b.n : Int) _ _ _ _ = _
      rw [nativeNew_csc (r' := b.m) (c' := b.n) (pyUsize_nat h2) (pyUsize_nat (by omega))]
      unfold Csc.fromParts
      rw [hck _ rfl]; rfl
  have hm : ∀ (y : PyMat V) o, BinMethod env.dbg f op ⟨f.rows b, f.cols b, s.int p, s.int i, s.float a, some b⟩ y o ↔
      o = .raises .valueError := by
    intro y o
    unfold BinMethod
    rw [show operands f (binPath f op) ⟨f.rows b, f.cols b, s.int p, s.int i, s.float a, some b⟩ y = .error .valueError by
      have e : operands f (binPath f op) ⟨f.rows b, f.cols b, s.int p, s.int i, s.float a, some b⟩ y =
          (do let u ← PyMat.parts f ⟨f.rows b, f.cols b, s.int p, s.int i, s.float a, some b⟩; let v ← y.parts f; pure (u, v)) := by
        cases f <;> rcases hop with rfl | rfl <;> rfl
      rw [e, hparts]; rfl]
  have hox : (s.rebind x (.data a)).objs[x]? = some (.mat f (f.rows b) (f.cols b) p i a (some b)) := by
    rw [objs_rebind, hx]; simp only [Option.map_some, if_true]; rfl
  obtain ⟨oy, hoy, my, hmy⟩ : ∃ oy, (s.rebind x (.data a)).objs[y]? = some oy ∧ ∃ my, oy.get (s.rebind x (.data a)) = .mat f my := by
    rw [objs_rebind, hy]
    refine ⟨_, rfl, ?_⟩
    dsimp only
    split
    · exact ⟨_, rfl⟩
    · exact ⟨_, rfl⟩
  have key : ∀ r, BinObj env op (RefObj.get (s.rebind x (.data a)) (.mat f (f.rows b) (f.cols b) p i a (some b)))
      (oy.get (s.rebind x (.data a))) r ↔ r = .raises .valueError := by
    intro r
    rw [hmy]
    show BinObj env op (.mat f ⟨f.rows b, f.cols b, s.int p, s.int i, s.float a, some b⟩) (.mat f my) r ↔ _
    simp only [BinObj, if_true, hm, exists_eq_left]
    exact Iff.rfl
  constructor
  · rintro ⟨o, o', e1, e2, r, h3, rfl⟩
    rw [hox] at e1; cases e1
    rw [hoy] at e2; cases e2
    rw [(key r).1 h3]; rfl
  · rintro rfl
    exact ⟨_, _, hox, hoy, .raises .valueError, (key _).2 rfl, rfl⟩

/-- C103 (negative): an array of pointers with the right length, first and last element is noticed nowhere.  After
`x.indptr = np.array([0, 5, 1])` on a valid `CSR` object `remainder(x, x)` and `pow(x, x)` read outside the arrays (release build). -/
theorem rebind_indptr_ub {env : PyEnv V} (hdbg : env.dbg = false) (op : BinOp) (hop : op = .rem ∨ op = .pow) (v : V) :
    ∃ s, Sess.Visits (· = env) (fun s c => s.TameCmd c ∨ ∃ x a, c = .rebind x (.indptr a)) s ∧
      ∀ out, s.Do env (.run (.bin op 0 0)) out ↔ out = .ub := by
  have hv : ∀ {s : Sess V}, Sess.Reach (· = env) (fun s st => s.Tame st ∧ st.writes = false) s →
      Sess.Visits (· = env) (fun s c => s.TameCmd c ∨ ∃ x a, c = .rebind x (.indptr a)) s := by
    intro s hr
    induction hr with
    | start => exact .start
    | @step env' s s' st _ hm ht hs ih => exact .step (c := .run st) ih hm (.inl (tame_cmd ht.1)) hs
  refine ⟨⟨[[0, 1, 1], [0], [0, 5, 1]], [[v]], [.mat .csr 2 3 2 1 0 (some ⟨2, 3, [0, 1, 1], [0], [v]⟩)]⟩,
    .step (s := { oneEntry v with ints := [[0, 1, 1], [0], [0, 5, 1]] }) (c := .rebind 0 (.indptr 2))
      (.step (s := oneEntry v) (c := .run (.ints [0, 5, 1])) (hv (oneEntry_reach env v)) rfl (.inl trivial) rfl)
      rfl (.inr ⟨0, 2, rfl⟩) ⟨Nat.one_pos, Nat.lt_succ_self 2, rfl⟩, fun out => ?_⟩
  have key : ∀ r, BinObj env op (.mat .csr ⟨2, 3, [0, 5, 1], [0], [v], some ⟨2, 3, [0, 1, 1], [0], [v]⟩⟩)
      (.mat .csr ⟨2, 3, [0, 5, 1], [0], [v], some ⟨2, 3, [0, 1, 1], [0], [v]⟩⟩) r ↔ r = .ub := by
    intro r
    have hm : ∀ o, BinMethod env.dbg .csr op (⟨2, 3, [0, 5, 1], [0], [v], some ⟨2, 3, [0, 1, 1], [0], [v]⟩⟩ : PyMat V)
        ⟨2, 3, [0, 5, 1], [0], [v], some ⟨2, 3, [0, 1, 1], [0], [v]⟩⟩ o ↔ o = .ub := by
      intro o
      rw [hdbg]
      unfold BinMethod
      rw [show operands .csr (binPath .csr op) (⟨2, 3, [0, 5, 1], [0], [v], some ⟨2, 3, [0, 1, 1], [0], [v]⟩⟩ : PyMat V)
        ⟨2, 3, [0, 5, 1], [0], [v], some ⟨2, 3, [0, 1, 1], [0], [v]⟩⟩ = .ok (jump v, jump v) by
          rcases hop with rfl | rfl <;> rfl]
      show (∃ o', _ ∧ o = _) ↔ _
      simp only [jump_run, exists_eq_left]
      rfl
    simp only [BinObj, if_true, hm, exists_eq_left]
    exact Iff.rfl
  constructor
  · rintro ⟨o, o', h1, h2, r, h3, rfl⟩
    cases h1; cases h2
    rw [((key r).1 h3 : r = .ub)]; rfl
  · rintro rfl
    exact ⟨_, _, rfl, rfl, .ub, (key _).2 rfl, rfl⟩

/-! ### examples -/

section
attribute [local instance] meaningHasFinite meaningHasFloor meaningHasPowf meaningHasLt meaningHasAbs meaningHasNan meaningIdealOrd

theorem exShared_visits {env : PyEnv ℚ} (he : env.Ok) : Sess.Visits PyEnv.Ok Sess.TameCmd exShared := by
  have : ∀ {s : Sess ℚ}, Sess.Reach (· = env) (fun s st => s.Tame st ∧ st.writes = false) s → Sess.Visits PyEnv.Ok Sess.TameCmd s := by
    intro s hr
    induction hr with
    | start => exact .start
    | @step env' s s' st _ hm ht hs ih => exact .step (c := .run st) ih (by rw [hm]; exact he) (tame_cmd ht.1) hs
  exact this (exShared_reach env)

theorem exWF (I : List Int) (D : List ℚ) (hI : ∀ j ∈ I, j ≤ i64Max)
    (h : Csr.fromParts 2 3 [0, 2, 3] I D true = .ok ⟨2, 3, [0, 2, 3], I, D⟩) : (⟨2, 3, [0, 2, 3], I, D⟩ : Comp ℚ).WF :=
  ((csr_fromParts_iff 2 3 [0, 2, 3] I D hI _).1 h).2.2

/-- The `CSR` and the `CSC` share their three arrays; one more array of values. -/
def exTwo : Sess ℚ := { exShared with floats := [[5, 6, 7], [1, -2, 3]] }

theorem exTwo_visits {env : PyEnv ℚ} (he : env.Ok) : Sess.Visits PyEnv.Ok Sess.TameCmd exTwo :=
  .step (s := exShared) (c := .run (.floats [1, -2, 3])) (exShared_visits he) he trivial rfl

/-- `x.data = b` for the first of the two is as assumed. -/
theorem exTwo_tame : exTwo.TameCmd (.rebind 0 (.data 1)) := by
  rintro o h
  cases h
  exact ⟨exWF _ _ (by decide) rfl, by show Ty.SizeOk 3 (.mat .csr 2 3); decide, rfl⟩

/-- `x.shape = (3, 2)` for the first of the two. -/
example (dbg : Bool) : ∃ s' o', exTwo.Do (exEnvQ dbg) (.rebind 0 (.shape [3, 2])) (.ret s') ∧ s'.objs[0]? = some o' ∧
    (o'.get s').attr .shape = some (.ints [3, 2]) ∧ (o'.get s').attr .data = some (.floats [5, 6, 7]) := by
  have h : exTwo.Do (exEnvQ dbg) (.rebind 0 (.shape [3, 2])) (.ret _) := ⟨by decide, trivial, rfl⟩
  obtain ⟨o', h1, h2⟩ := rebind_attr h (k := 0) (o := .mat .csr 2 3 0 1 0 (some ⟨2, 3, [0, 2, 3], [0, 2, 1], [5, 6, 7]⟩)) rfl
    (by rintro l h old ho; cases h; cases ho; rfl)
  exact ⟨_, o', h, h1, h2 .shape, h2 .data⟩

/-- Afterwards the objects share the array of values no longer: a write to the old one reaches only the second. -/
example (dbg : Bool) : ∃ s' s'', exTwo.Do (exEnvQ dbg) (.rebind 0 (.data 1)) (.ret s') ∧
    s'.Do (exEnvQ dbg) (.run (.setFloats 0 [8, 8, 8])) (.ret s'') ∧ Sess.Visits PyEnv.Ok Sess.TameCmd s'' ∧
    s''.objs.map (·.now s'') =
      [.mat .csr ⟨2, 3, [0, 2, 3], [0, 2, 1], [1, -2, 3]⟩, .mat .csc ⟨2, 3, [0, 2, 3], [0, 2, 1], [8, 8, 8]⟩] ∧
    s''.objs.map (·.snap s'') = exShared.objs.map (·.snap exShared) := by
  have h1 : exTwo.Do (exEnvQ dbg) (.rebind 0 (.data 1)) (.ret (exTwo.rebind 0 (.data 1))) := ⟨by decide, by show 1 < 2; omega, rfl⟩
  have h2 : (exTwo.rebind 0 (.data 1)).Do (exEnvQ dbg) (.run (.setFloats 0 [8, 8, 8]))
      (.ret { exTwo.rebind 0 (.data 1) with floats := [[8, 8, 8], [1, -2, 3]] }) := ⟨_, rfl, rfl⟩
  exact ⟨_, _, h1, h2, .step (.step (exTwo_visits (exEnvQ_ok dbg)) (exEnvQ_ok dbg) exTwo_tame h1)
    (c := .run (.setFloats 0 [8, 8, 8])) (exEnvQ_ok dbg) trivial h2, rfl, rfl⟩

/-- `y.indices = a` with other indices on a `COOND` is as assumed when the result is valid: the object then is another array,
and every function sees it. -/
example : (RefObj.nd (V := ℚ) [2, 3] 0 0).Keeps ⟨[[0, 2], [1, 1]], [[5]], []⟩ (.indices 0) ∧
    (RefObj.nd (V := ℚ) [2, 3] 1 0).rebind (.indices 0) = .nd [2, 3] 0 0 ∧
    (RefObj.nd (V := ℚ) [2, 3] 1 0).rebind (.shape [4, 4]) = .nd [4, 4] 1 0 := by
  refine ⟨?_, rfl, rfl⟩
  refine ⟨⟨⟨by decide, by decide, ?_⟩, ?_⟩, ?_, fun l => by rintro ⟨⟩⟩
  · intro k hk
    have hk : k < 1 := hk
    obtain rfl : k = 0 := by omega
    intro m hm
    have hm : m < 2 := hm
    obtain rfl | rfl : m = 0 ∨ m = 1 := by omega
    · show (0 : Int) ≤ 0 ∧ (0 : Int) < 2; decide
    · show (0 : Int) ≤ 2 ∧ (2 : Int) < 3; decide
  · show ∀ j ∈ [(0 : Int), 2], j ≤ i64Max; decide
  · show Ty.SizeOk 1 (.nd [2, 3]); decide

/-- `x.data = np.array([4.0])`, then `remainder(x, x)`: the array is too short. -/
example (dbg : Bool) (out : PyRes (Sess ℚ)) :
    (({ exShared with floats := [[5, 6, 7], [4]] } : Sess ℚ).rebind 1 (.data 1)).Do (exEnvQ dbg) (.run (.bin .rem 1 1)) out ↔
      out = .raises .valueError :=
  rebind_length_raises (.step (s := exShared) (c := .run (.floats [4])) (exShared_visits (exEnvQ_ok dbg)) (exEnvQ_ok dbg) trivial rfl)
    rfl rfl (by decide) (.inl rfl) out

/-- A write to the array of indices of both objects is as assumed when both are valid afterwards.  `+` and `todense()` see the
new indices, `sum` and the products the old ones. -/
example (dbg : Bool) : ∃ s', exShared.Do (exEnvQ dbg) (.run (.setInts 1 [0, 1, 2])) (.ret s') ∧
    Sess.Visits PyEnv.Ok Sess.TameCmd s' ∧
    s'.objs.map (·.now s') =
      [.mat .csr ⟨2, 3, [0, 2, 3], [0, 1, 2], [5, 6, 7]⟩, .mat .csc ⟨2, 3, [0, 2, 3], [0, 1, 2], [5, 6, 7]⟩] ∧
    s'.objs.map (·.snap s') = exShared.objs.map (·.snap exShared) := by
  have h1 : exShared.Do (exEnvQ dbg) (.run (.setInts 1 [0, 1, 2])) (.ret { exShared with ints := [[0, 2, 3], [0, 1, 2]] }) :=
    ⟨_, rfl, rfl⟩
  refine ⟨_, h1, .step (exShared_visits (exEnvQ_ok dbg)) (exEnvQ_ok dbg) ?_ h1, rfl, rfl⟩
  intro o ho
  have ho : o ∈ [RefObj.mat (V := ℚ) _ _ _ _ _ _ _, _] := ho
  rcases List.mem_cons.1 ho with rfl | ho
  · exact exWF _ _ (by decide) rfl
  · obtain rfl := List.mem_singleton.1 ho
    exact exWF _ _ (by decide) rfl

/-- So is `x.indices = np.array([0, 1, 2])` for the first of them; the second keeps its indices. -/
example (dbg : Bool) : ∃ s, s.TameCmd (.rebind 0 (.indices 2)) ∧ Sess.Visits PyEnv.Ok Sess.TameCmd s ∧
    (s.rebind 0 (.indices 2)).objs.map (·.now (s.rebind 0 (.indices 2))) =
      [.mat .csr ⟨2, 3, [0, 2, 3], [0, 1, 2], [5, 6, 7]⟩, .mat .csc ⟨2, 3, [0, 2, 3], [0, 2, 1], [(5 : ℚ), 6, 7]⟩] := by
  refine ⟨{ exShared with ints := [[0, 2, 3], [0, 2, 1], [0, 1, 2]] }, ?_,
    .step (s := exShared) (c := .run (.ints [0, 1, 2])) (exShared_visits (exEnvQ_ok dbg)) (exEnvQ_ok dbg) trivial rfl, rfl⟩
  rintro o h
  cases h
  exact ⟨exWF _ _ (by decide) rfl, by show Ty.SizeOk 3 (.mat .csr 2 3); decide, rfl⟩

/-- An assignment that makes an index of a `CSR` too large is not as assumed. -/
example : ¬ exTwo.TameCmd (.rebind 0 (.indices 0)) := by
  intro h
  have hw : (⟨2, 3, [0, 2, 3], [0, 2, 3], [5, 6, 7]⟩ : Comp ℚ).WF := (h _ rfl).1
  have := (hw.bounds 3 (by decide)).2
  exact absurd this (by decide)

end
end Lacuna
