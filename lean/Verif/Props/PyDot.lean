import Verif.Lemmas.PyDot
import Verif.Props.PyLinProg
import Verif.Props.PyAny
import Verif.Props.RoundingMul
/-
C86: `matmul`, `tensordot` and `vecdot` in the arithmetic of the machine.
-/
set_option linter.unusedSectionVars false

namespace Lacuna
variable {V : Type}

section
variable [Zero V] [Add V] [Mul V] [BEq V] [HasFma V]

theorem matVec_gives (dbg : Bool) (nthreads : Nat) {x : PySp V} {a : Native V} (hx : x.Holds a) (hv : a.Valid) (hf : a.Fits) {y : List V}
    (hy : y.length = a.cols) : GivesPy (MatVec dbg nthreads x y) fun r => ∃ d, r = ⟨[a.rows], d⟩ ∧ d.length = a.rows ∧
      ∀ i, i < a.rows → DotCell a.ty 1 false (a.rowFactors (fun j => y.getD j 0) i) (d.getD i 0) := by
  obtain ⟨⟨o, ho⟩, h2⟩ := spmv_gives dbg nthreads hv hf hy
  have e : MatVec dbg nthreads x y = fun out => ∃ o, Settles (fun N => SpmvOut dbg nthreads N a y) o ∧
      out = (PyRes.ofKernel o).bind fun r => .ret ⟨[r.length], r⟩ := by
    funext out
    unfold MatVec
    rw [if_neg (by rw [hx.2.1]; omega), PySp.operand_holds hx]
  rw [e]
  refine ⟨⟨_, o, ho, rfl⟩, ?_⟩
  rintro out ⟨o, ho, rfl⟩
  obtain ⟨d, rfl, hd⟩ := h2 o ho
  exact ⟨_, rfl, d, by rw [hd.1], hd.1, hd.2⟩

theorem atMul_fold (hc : ∀ x y : V, x * y = y * x) (dbg : Bool) (nthreads : Nat) {x : PySp V} {a : Native V} (hx : x.Holds a)
    (hv : a.Valid) (hf : a.Fits) {b : List V} {k : Nat} (hk : 0 < k)
    (hb : b.length = a.cols * k) (hbs : 8 * (b.length : Int) ≤ i64Max) (hsz : 8 * ((a.rows * k : Nat) : Int) ≤ i64Max) :
    ∃ r, MatFold a k b r ∧ ∀ out, AtMul dbg nthreads x ⟨[a.cols, k], b⟩ out ↔ out = .ret ⟨[a.rows, k], r⟩ := by
  obtain ⟨r, hr, h⟩ := spmm_fold hc dbg hv hf hk hb hbs hsz
  refine ⟨r, hr, fun out => ?_⟩
  show MatMat dbg x a.cols k b out ↔ _
  unfold MatMat
  rw [if_neg (by rw [hx.2.1]; simp), PySp.operand_holds hx]
  simp only [h, exists_eq_left]
  rw [if_neg (by simp)]
  simp [PyRes.ofKernel, PyRes.bind, fromShapeVec, hr.1]

theorem matmul_batch_fold (hc : ∀ x y : V, x * y = y * x) (dbg : Bool) (nthreads : Nat) {x : PySp V} {a : Native V} (hx : x.Holds a)
    (hv : a.Valid) (hf : a.Fits) {y : DenseNd V} {batch : List Nat} {n : Nat}
    (hs : y.shape = batch ++ [a.cols, n]) (hb : batch ≠ []) (hk : 0 < batch.prod * n) (hy : y.Ok)
    (hsz : 8 * ((a.rows * (batch.prod * n) : Nat) : Int) ≤ i64Max) :
    ∃ r, MatFold a (batch.prod * n) (swap01 batch.prod a.cols n y.data) r ∧
      ∀ out, PyMatmul dbg nthreads x y out ↔ out = .ret ⟨batch ++ [a.rows, n], swap01 a.rows batch.prod n r⟩ := by
  have hl : (swap01 batch.prod a.cols n y.data).length = a.cols * (batch.prod * n) := by rw [swap01_length]
  have hyl : y.data.length = a.cols * (batch.prod * n) := by
    rw [hy.1, hs, List.prod_append]; simp; ring
  obtain ⟨r, hr, h⟩ := atMul_fold hc dbg nthreads hx hv hf (b := swap01 batch.prod a.cols n y.data) hk hl
    (by rw [hl, ← hyl]; exact hy.2) hsz
  refine ⟨r, hr, fun out => ?_⟩
  have hb1 : 0 < batch.length := List.length_pos_iff.2 hb
  unfold PyMatmul
  rw [if_neg (by rw [hs]; simp; omega)]
  have e1 : y.shape.length - 2 = batch.length := by rw [hs]; simp
  have e2 : y.shape.length - 1 = batch.length + 1 := by rw [hs]; simp
  have e3 : y.shape.take (y.shape.length - 2) = batch := by rw [e1, hs]; simp
  have e4 : y.shape.getD (y.shape.length - 2) 0 = a.cols := by rw [e1, hs]; simp
  have e5 : y.shape.getD (y.shape.length - 1) 0 = n := by rw [e2, hs]; simp
  simp only [e3, e4, e5, hx.1, hx.2.1]
  rw [if_neg (by simp)]
  simp only [h, exists_eq_left]
  simp [PyRes.bind]

theorem tensordot_fold (hc : ∀ x y : V, x * y = y * x) (dbg : Bool) (nthreads : Nat) {x : PySp V} {a : Native V} (hx : x.Holds a)
    (hv : a.Valid) (hf : a.Fits) {axes : AxesArg} (hax : axes2d axes = .ok ())
    {y : DenseNd V} {rest : List Nat} (hs : y.shape = a.cols :: rest) (hr0 : rest ≠ []) (hk : 0 < rest.prod) (hy : y.Ok)
    (hr : rest.prod ≤ usizeMax) (hsz : 8 * ((a.rows * rest.prod : Nat) : Int) ≤ i64Max) :
    ∃ r, MatFold a rest.prod y.data r ∧ ∀ out, PyTensordot dbg nthreads axes x y out ↔ out = .ret ⟨a.rows :: rest, r⟩ := by
  have hyl : y.data.length = a.cols * rest.prod := by rw [hy.1, hs, List.prod_cons]
  obtain ⟨r, hr', h⟩ := spmm_fold hc dbg hv hf hk hyl hy.2 hsz
  refine ⟨r, hr', fun out => ?_⟩
  unfold PyTensordot
  have hc : tensordotCols a.cols y.data.length (a.cols :: rest) = some rest.prod :=
    tensordotCols_eq hk hr (by rw [← hyl]; exact bytes_usize hy.2) hyl
  obtain ⟨d, rest, rfl⟩ := List.exists_cons_of_ne_nil hr0
  rw [hax, hs]
  dsimp only
  rw [if_neg (by rw [hx.2.1]; simp), hx.2.2.2]
  dsimp only
  rw [if_neg (by simp)]
  unfold TensordotOut
  simp only [hc, h, exists_eq_left]
  simp [PyRes.ofKernel, PyRes.bind, fromShapeVec, hr'.1]

theorem givesPy_of_iff {α : Type} {p : PyRes α → Prop} {d : α} {R : α → Prop} (h : ∀ o, p o ↔ o = .ret d) (hr : R d) : GivesPy p R :=
  ⟨⟨_, (h _).2 rfl⟩, fun o ho => ⟨d, (h o).1 ho, hr⟩⟩

theorem GivesPy.imp {α : Type} {p : PyRes α → Prop} {R Q : α → Prop} (h : GivesPy p R) (hq : ∀ y, R y → Q y) : GivesPy p Q :=
  ⟨h.1, fun o ho => by obtain ⟨y, e, hy⟩ := h.2 o ho; exact ⟨y, e, hq y hy⟩⟩

/-- C86: in any arithmetic with a commutative product, the three functions on an object that holds a valid
matrix, for every build, number of threads and schedule: there is an outcome; every outcome is a dense array of
the documented shape whose elements are made of the stored numbers and the elements of `y` that belong to them,
and nothing else. -/
theorem py_linalg_any (hm : ∀ x y : V, x * y = y * x) (env : PyEnv V) {v : SpVal V} (hv : v.Valid) (hs : v.ty.SizeOk v.nnz)
    (h2 : v.ty.Is2d) {fn : LinFn} {y : DenseNd V} (hy : y.Ok) {tr : Bool} {p : Nat} (hc : fn.Contraction y.shape.length tr p) {r c : Nat}
    (hrc : (if tr then v.ty.shape.reverse else v.ty.shape) = [r, c]) (hyc : y.shape[p]? = some c)
    (hpos : 0 < (y.shape.eraseIdx p).prod) (hsz : 8 * ((max r 1 * (y.shape.eraseIdx p).prod : Nat) : Int) ≤ i64Max) :
    (∃ out, LinSparseDense env fn v.obj y out) ∧
    ∀ out, LinSparseDense env fn v.obj y out →
      ∃ d, out = .ret (.dense d) ∧ ContractsBy (DotCell v.ty y.shape.length tr) v.stores tr r p y d := by
  obtain ⟨x, a, e1, e2, hx, hva, hfa, hsh⟩ := SpVal.Good.sp ⟨hv, hs⟩ h2
  rw [hsh] at hrc
  have hone : 8 * (((y.shape.eraseIdx p).prod : Nat) : Int) ≤ i64Max := by
    refine le_trans ?_ hsz
    have := Nat.le_mul_of_pos_left (y.shape.eraseIdx p).prod (show 0 < max r 1 by omega)
    omega
  replace hsz : 8 * ((r * (y.shape.eraseIdx p).prod : Nat) : Int) ≤ i64Max := by
    refine le_trans ?_ hsz
    have := Nat.mul_le_mul_right (y.shape.eraseIdx p).prod (show r ≤ max r 1 by omega)
    omega
  have done : ∀ {P : PyRes (DenseNd V) → Prop}, GivesPy P (ContractsBy (DotCell v.ty y.shape.length tr) v.stores tr r p y) →
      (∃ out : PyRes (LinRes V), ∃ o, P o ∧ out = o.bind fun r => .ret (.dense r)) ∧
      ∀ out : PyRes (LinRes V), (∃ o, P o ∧ out = o.bind fun r => .ret (.dense r)) →
        ∃ d, out = .ret (.dense d) ∧ ContractsBy (DotCell v.ty y.shape.length tr) v.stores tr r p y d := by
    rintro P ⟨⟨o, ho⟩, h⟩
    refine ⟨⟨_, o, ho, rfl⟩, ?_⟩
    rintro out ⟨o, ho, rfl⟩
    obtain ⟨d, rfl, hd⟩ := h o ho
    exact ⟨d, rfl, hd⟩
  have two : 2 ≤ y.shape.length → ∀ {d : DenseNd V}, ContractsBy (fun l x => x = dotFold l) v.stores tr r p y d →
      ContractsBy (DotCell v.ty y.shape.length tr) v.stores tr r p y d :=
    fun hl d h => h.imp fun l x hx => by unfold DotCell; rw [if_pos hl]; exact hx
  have vec : tr = false → p = 0 → r = a.rows → y.shape = [a.cols] → GivesPy (MatVec env.dbg env.threads x y.data)
      (ContractsBy (DotCell v.ty y.shape.length tr) v.stores tr r p y) := by
    rintro rfl rfl rfl hn
    refine (matVec_gives env.dbg env.threads hx hva hfa (y := y.data) (by rw [hy.1, hn]; simp)).imp ?_
    rintro _ ⟨d, rfl, hd⟩
    rw [toNative_ty e2] at hd
    rw [show y.shape.length = 1 by rw [hn]; rfl]
    exact contractsBy_rows hv e2 hn hd
  simp only [linSparseDense_2d env fn e1]
  cases fn with
  | matmul =>
    obtain ⟨rfl, hp⟩ := hc
    cases hrc
    rcases hp with ⟨hl, rfl⟩ | ⟨hl, rfl⟩
    · obtain ⟨n, hn⟩ := List.length_eq_one_iff.1 hl
      rw [hn] at hyc
      have hn' : y.shape = [a.cols] := by rw [hn]; simpa using hyc
      refine done ?_
      have := vec rfl rfl rfl hn'
      have e : PyMatmul env.dbg env.threads x y = MatVec env.dbg env.threads x y.data := by
        funext o; unfold PyMatmul AtMul; rw [hn']; rfl
      dsimp only
      rw [e]
      exact this
    · obtain ⟨n, k, b, hb⟩ : ∃ n k b, y.shape.reverse = n :: k :: b := by
        match h : y.shape.reverse with
        | [] => have := congrArg List.length h; simp at this; rw [this] at hl; simp at hl
        | [_] => have := congrArg List.length h; simp at this; omega
        | n :: k :: b => exact ⟨n, k, b, rfl⟩
      have hs : y.shape = b.reverse ++ [k, n] := by simpa using congrArg List.reverse hb
      generalize b.reverse = batch at hs
      have hl2 : y.shape.length - 2 = batch.length := by rw [hs]; simp
      rw [hl2, hs] at hyc
      have hk : k = a.cols := by simpa using hyc
      subst hk
      have he : (y.shape.eraseIdx batch.length).prod = batch.prod * n := by
        rw [hs, List.eraseIdx_append_of_length_le (le_refl _)]; simp
      rw [hl2] at hpos hsz
      rw [he] at hpos hsz
      refine done ?_
      by_cases hbn : batch = []
      · subst hbn
        have hs' : y.shape = [a.cols, n] := by simpa using hs
        have hk : 0 < n := by simpa using hpos
        have hyl : y.data.length = a.cols * n := by rw [hy.1, hs']; simp
        obtain ⟨d, hd1, hd2⟩ := atMul_fold hm env.dbg env.threads hx hva hfa hk hyl hy.2 (by simpa using hsz)
        refine givesPy_of_iff (d := ⟨[a.rows, n], d⟩) (fun o => ?_) (two hl ?_)
        · rw [← hd2 o]
          obtain ⟨sh, b⟩ := y
          obtain rfl : sh = [a.cols, n] := hs'
          rfl
        · rw [hl2]
          exact contractsBy_mat hv e2 hs' (by simpa using hd1)
      · obtain ⟨d, hd1, hd2⟩ := matmul_batch_fold hm env.dbg env.threads hx hva hfa hs hbn hpos hy hsz
        refine givesPy_of_iff hd2 (two hl ?_)
        rw [hl2]
        exact contractsBy_batch hv e2 hsh hs hd1
  | tensordot axes =>
    obtain ⟨rfl, hl, rfl, hax⟩ := hc
    cases hrc
    have hax : axes2d axes = .ok () := by
      rcases hax with rfl | ⟨ps, qs, rfl⟩ <;> rfl
    obtain ⟨d, rest, hs⟩ := List.exists_cons_of_length_pos hl
    have hyc' := hyc
    rw [hs] at hyc' hpos hsz hone
    have hd : d = a.cols := by simpa using hyc'
    subst hd
    rw [List.eraseIdx_cons_zero] at hpos hsz hone
    refine done ?_
    by_cases hr : rest = []
    · subst hr
      have := vec rfl rfl rfl hs
      have e : PyTensordot env.dbg env.threads axes x y = MatVec env.dbg env.threads x y.data := by
        funext o; unfold PyTensordot; rw [hax, hs]; dsimp only; rw [if_neg (by rw [hx.2.1]; simp)]
      dsimp only
      rw [e]
      exact this
    · have hr' : rest.prod ≤ usizeMax := bytes_usize hone
      obtain ⟨d, hd1, hd2⟩ := tensordot_fold hm env.dbg env.threads hx hva hfa hax hs hr hpos hy hr' hsz
      refine givesPy_of_iff hd2 (two ?_ (contractsBy_mat hv e2 hs hd1))
      rw [hs]
      have := List.length_pos_iff.2 hr
      simp only [List.length_cons]; omega
  | vecdot axis =>
    obtain ⟨hl, rfl, hax⟩ := hc
    obtain ⟨n, hn⟩ := List.length_eq_one_iff.1 hl
    have hyc' := hyc
    rw [hn] at hyc'
    refine done ?_
    cases tr with
    | false =>
      cases hrc
      have hax : axis = none ∨ axis = some (-1) ∨ axis = some 1 := by simpa using hax
      have hn' : y.shape = [a.cols] := by rw [hn]; simpa using hyc'
      have := vec rfl rfl rfl hn'
      have e : PyVecdot env.dbg env.threads axis x y = MatVec env.dbg env.threads x y.data := by
        funext o; unfold PyVecdot; rw [hn']; dsimp only; rw [if_pos hax, if_neg (by rw [hx.2.1]; simp)]
      dsimp only
      rw [e]
      exact this
    | true =>
      obtain rfl : axis = some 0 := hax
      cases hrc
      have hn' : y.shape = [a.rows] := by rw [hn]; simpa using hyc'
      obtain ⟨⟨o, ho⟩, h⟩ := vecdot_gives env.dbg env.threads hva hfa (show y.data.length = a.rows by rw [hy.1, hn']; simp)
      have e : PyVecdot env.dbg env.threads (some 0) x y = fun out => ∃ o, Settles (fun N => VecdotOut env.dbg env.threads N a y.data) o ∧
          out = (PyRes.ofKernel o).bind fun r => .ret ⟨[r.length], r⟩ := by
        funext out
        unfold PyVecdot
        rw [hn']
        dsimp only
        rw [if_neg (by simp), if_pos rfl, if_neg (by rw [hx.1]; simp), hx.2.2.2]
      dsimp only
      rw [e]
      refine ⟨⟨_, o, ho, rfl⟩, ?_⟩
      rintro out ⟨o, ho, rfl⟩
      obtain ⟨d, rfl, hd⟩ := h o ho
      rw [toNative_ty e2] at hd
      refine ⟨_, rfl, ?_⟩
      rw [hd.1, show y.shape.length = 1 by rw [hn']; rfl]
      exact contractsBy_cols hv e2 hn' hd

/-- C86: with two or more axes, and for a vector along the lines of a compressed matrix, there is one outcome:
the bits do not depend on the build, the number of threads or the schedule. -/
theorem py_linalg_bits (hm : ∀ x y : V, x * y = y * x) {v : SpVal V} (hv : v.Valid) (hs : v.ty.SizeOk v.nnz)
    (h2 : v.ty.Is2d) {fn : LinFn} {y : DenseNd V} (hy : y.Ok) {tr : Bool} {p : Nat} (hc : fn.Contraction y.shape.length tr p)
    (hfix : v.ty.FixedOrder y.shape.length tr) {r c : Nat}
    (hrc : (if tr then v.ty.shape.reverse else v.ty.shape) = [r, c]) (hyc : y.shape[p]? = some c)
    (hpos : 0 < (y.shape.eraseIdx p).prod) (hsz : 8 * ((max r 1 * (y.shape.eraseIdx p).prod : Nat) : Int) ≤ i64Max) :
    ∃ d, ContractsBy (DotCell v.ty y.shape.length tr) v.stores tr r p y d ∧
      ∀ (env : PyEnv V) out, LinSparseDense env fn v.obj y out ↔ out = .ret (.dense d) := by
  have main := fun env => py_linalg_any hm env hv hs h2 hy hc hrc hyc hpos hsz
  obtain ⟨⟨out0, h0⟩, h1⟩ := main ⟨false, 1, id, id, id, fun _ l => l⟩
  obtain ⟨d, -, hd⟩ := h1 out0 h0
  refine ⟨d, hd, fun env out => ?_⟩
  obtain ⟨⟨out1, h1⟩, h3⟩ := main env
  have one : ∀ o, LinSparseDense env fn v.obj y o → o = .ret (.dense d) := by
    intro o ho
    obtain ⟨d', rfl, hd'⟩ := h3 o ho
    rw [hd'.unique (fun l x x' => dotCell_unique hfix l) hd]
  constructor
  · exact one out
  · rintro rfl; rw [← one out1 h1]; exact h1

/-- C86: with two or more axes the class does not matter either, as long as both objects hold the numbers of every
row in the same order. -/
theorem py_linalg_formats (hm : ∀ x y : V, x * y = y * x) {v w : SpVal V} (hv : v.Valid) (hs : v.ty.SizeOk v.nnz)
    (h2 : v.ty.Is2d) (hw : w.Valid) (hsw : w.ty.SizeOk w.nnz) (h2w : w.ty.Is2d) (hsh : w.ty.shape = v.ty.shape)
    (hrows : ∀ i : Nat, i < v.ty.shape.getD 0 0 → w.stores.filter (fun e => e.1.getD 0 0 == (i : Int)) = v.stores.filter fun e => e.1.getD 0 0 == (i : Int))
    {fn : LinFn} {y : DenseNd V} (hy : y.Ok) (hn : 2 ≤ y.shape.length) {p : Nat} (hc : fn.Contraction y.shape.length false p) {r c : Nat}
    (hrc : v.ty.shape = [r, c]) (hyc : y.shape[p]? = some c)
    (hpos : 0 < (y.shape.eraseIdx p).prod) (hsz : 8 * ((max r 1 * (y.shape.eraseIdx p).prod : Nat) : Int) ≤ i64Max)
    (env env' : PyEnv V) (out : PyRes (LinRes V)) : LinSparseDense env fn v.obj y out ↔ LinSparseDense env' fn w.obj y out := by
  obtain ⟨d, h, e⟩ := py_linalg_bits hm hv hs h2 hy hc (.inl hn) (r := r) (c := c) (by simpa using hrc) hyc hpos hsz
  obtain ⟨d', h', e'⟩ := py_linalg_bits hm hw hsw h2w hy hc (.inl hn) (r := r) (c := c) (by simpa [hsh] using hrc) hyc hpos hsz
  rw [e, e']
  suffices d = d' by rw [this]
  have hp : p < y.shape.length := (List.getElem?_eq_some_iff.1 hyc).1
  refine h.unique (P := DotCell v.ty y.shape.length false) (fun l x x' => dotCell_unique (.inl hn) l) ⟨h'.1, h'.2.1, fun z hz => ?_⟩
  have h3 := h'.2.2 z hz
  have et : dotTerms w.stores false p y z = dotTerms v.stores false p y z := by
    have hzl : z.length = d'.shape.length := hz.length_eq
    rw [h'.1, List.length_set] at hzl
    have hb := hz.get (i := p) (by omega) (by rw [h'.1, List.length_set]; exact hp)
    have e3 : (z.getD p 0) = z.get ⟨p, by omega⟩ := List.getD_eq_getElem _ _ (by omega)
    obtain ⟨i, hi⟩ := Int.eq_ofNat_of_zero_le hb.1
    have hir : i < v.ty.shape.getD 0 0 := by
      have e2 : d'.shape.get ⟨p, by rw [h'.1, List.length_set]; exact hp⟩ = r := by simp [h'.1]
      have h2 := hb.2
      rw [hi, e2] at h2
      rw [hrc]
      show i < r
      omega
    unfold dotTerms
    simp only [Bool.false_eq_true, if_false]
    rw [e3, hi]
    rw [hrows i hir]
  rw [et] at h3
  unfold DotCell at h3 ⊢
  rw [if_pos hn] at h3 ⊢
  exact h3

end

section
variable [Zero V] [One V] [Add V] [Sub V] [Mul V] [Div V] [Neg V] [BEq V] [NatCast V] [HasFinite V]
  [HasFloor V] [HasPowf V] [HasAbs V] [HasLt V] [HasNan V] [HasMinMax V] [HasSqrt V] [HasFma V]

theorem prog_stores {env : PyEnv V} (he : env.Ok) {e : Prog V} (hl : e.LitsOk) (hs : e.Small) (hd : e.Determined) {τ : Ty}
    (hc : e.check = .ok τ) : ∃ w : SpVal V, w.Valid ∧ w.ty.SizeOk w.nnz ∧ w.ty = τ ∧ w.stores = e.stores ∧
      ∀ o, e.Eval env o ↔ o = .ret w.obj := by
  obtain ⟨h1, h2⟩ := Prog.step he hl hs
  have hf := Prog.small_fits hs
  unfold Prog.Fits at hf
  rw [hc] at h1 hf
  obtain ⟨w, e1, hv, ht, hn⟩ := h1
  rw [e1] at h2
  exact ⟨w, hv, by rw [ht]; exact Ty.SizeOk.mono hf hn, ht, (Prog.value_stores he hl hs hd e1).1, h2⟩

/-- C86: a program whose value is a matrix, as the left operand: the elements are made of the numbers the
program stores (C79), in that order. -/
theorem prog_linalg_any (hm : ∀ x y : V, x * y = y * x) {env : PyEnv V} (he : env.Ok) {e : Prog V} (hl : e.LitsOk) (hs : e.Small)
    (hd : e.Determined) {τ : Ty} (hc : e.check = .ok τ) (h2 : τ.Is2d)
    {fn : LinFn} {y : DenseNd V} (hy : y.Ok) {tr : Bool} {p : Nat} (hfn : fn.Contraction y.shape.length tr p) {r c : Nat}
    (hrc : (if tr then τ.shape.reverse else τ.shape) = [r, c]) (hyc : y.shape[p]? = some c)
    (hpos : 0 < (y.shape.eraseIdx p).prod) (hsz : 8 * ((max r 1 * (y.shape.eraseIdx p).prod : Nat) : Int) ≤ i64Max) :
    (∃ out, e.Linalg env fn y out) ∧
    ∀ out, e.Linalg env fn y out →
      ∃ d, out = .ret (.dense d) ∧ ContractsBy (DotCell τ y.shape.length tr) e.stores tr r p y d := by
  obtain ⟨w, hv, hs', rfl, hst, hev⟩ := prog_stores he hl hs hd hc
  simp only [linalg_then hev, ← hst]
  exact py_linalg_any hm env hv hs' h2 hy hfn hrc hyc hpos hsz

/-- C86: one outcome, whatever the build, the sort routines, the number of threads and the schedule. -/
theorem prog_linalg_bits (hm : ∀ x y : V, x * y = y * x) {e : Prog V} (hl : e.LitsOk) (hs : e.Small)
    (hd : e.Determined) {τ : Ty} (hc : e.check = .ok τ) (h2 : τ.Is2d)
    {fn : LinFn} {y : DenseNd V} (hy : y.Ok) {tr : Bool} {p : Nat} (hfn : fn.Contraction y.shape.length tr p)
    (hfix : τ.FixedOrder y.shape.length tr) {r c : Nat}
    (hrc : (if tr then τ.shape.reverse else τ.shape) = [r, c]) (hyc : y.shape[p]? = some c)
    (hpos : 0 < (y.shape.eraseIdx p).prod) (hsz : 8 * ((max r 1 * (y.shape.eraseIdx p).prod : Nat) : Int) ≤ i64Max)
    {env env' : PyEnv V} (he : env.Ok) (he' : env'.Ok) (out : PyRes (LinRes V)) :
    e.Linalg env fn y out ↔ e.Linalg env' fn y out := by
  have main := fun (env : PyEnv V) he => prog_linalg_any hm (env := env) he hl hs hd hc h2 hy hfn hrc hyc hpos hsz
  have key : ∀ {env env' : PyEnv V}, env.Ok → env'.Ok → e.Linalg env fn y out → e.Linalg env' fn y out := by
    intro env env' he he' h
    obtain ⟨d, rfl, hd⟩ := (main env he).2 out h
    obtain ⟨⟨o, ho⟩, h3⟩ := main env' he'
    obtain ⟨d', rfl, hd'⟩ := h3 o ho
    rw [hd.unique (fun l x x' => dotCell_unique hfix l) hd']
    exact ho
  exact ⟨key he he', key he' he⟩

end

/-! ### Rounding errors -/

section
variable [Zero V] [Add V] [Mul V] [BEq V] [HasFma V]

theorem dotFold_tree (l : List (V × V)) : DotTree l (dotFold l) := by
  have := foldl_tree (l.map pairMul) (.zero (V := V))
  rw [zero_add, List.foldl_map] at this
  exact this

/-- Leaving out factors whose product is zero keeps the bound. -/
theorem RoundedDot.of_filter {M : FpMul V} {l : List (V × V)} {v : V} {q : V × V → Bool} (hq : ∀ p ∈ l, q p = false → M.val p.1 * M.val p.2 = 0)
    (h : RoundedDot M (l.filter q : Multiset (V × V)) v) : RoundedDot M (l : Multiset (V × V)) v := by
  have e : ∀ f : V × V → ℚ, (∀ p ∈ l, q p = false → f p = 0) → ((l.filter q).map f).sum = (l.map f).sum := by
    intro f hf
    clear h hq
    induction l with
    | nil => rfl
    | cons p l ih =>
      have ih := ih fun p hp => hf p (List.mem_cons_of_mem _ hp)
      by_cases hp : q p = true
      · rw [List.filter_cons_of_pos hp, List.map_cons, List.sum_cons, List.map_cons, List.sum_cons, ih]
      · rw [List.filter_cons_of_neg hp, ih, List.map_cons, List.sum_cons, hf p List.mem_cons_self (by simpa using hp), zero_add]
  have s1 := e (fun p => M.val p.1 * M.val p.2) hq
  have s2 := e (fun p => |M.val p.1 * M.val p.2|) fun p hp hf => by rw [hq p hp hf, abs_zero]
  intro hs hb
  have hn : (l.filter q).length ≤ l.length := List.length_filter_le _ _
  have h1 : 1 ≤ 1 + M.eps := by linarith [M.eps_nonneg]
  have ht := M.eta_nonneg
  have hS : 0 ≤ (l.map fun p => |M.val p.1 * M.val p.2|).sum := List.sum_nonneg (by
    intro x hx
    obtain ⟨p, -, rfl⟩ := List.mem_map.1 hx
    exact abs_nonneg _)
  have hc : ((l.filter q).length : ℚ) ≤ (l.length : ℚ) := by exact_mod_cast hn
  have p1 : (1 + M.eps) ^ ((l.filter q).length + 1) ≤ (1 + M.eps) ^ (l.length + 1) := pow_le_pow_right₀ h1 (by omega)
  have p2 : (1 + M.eps) ^ (l.filter q).length ≤ (1 + M.eps) ^ l.length := pow_le_pow_right₀ h1 hn
  have p3 : (1 + M.eps) ^ ((l.filter q).length - 1) ≤ (1 + M.eps) ^ (l.length - 1) := pow_le_pow_right₀ h1 (by omega)
  have pos : ∀ n, 0 ≤ (1 + M.eps) ^ n := fun n => by positivity
  simp only [Multiset.coe_card, Multiset.map_coe, Multiset.sum_coe] at hb ⊢
  unfold RoundedDot at h
  simp only [Multiset.coe_card, Multiset.map_coe, Multiset.sum_coe, s1, s2] at h
  obtain ⟨f, hf⟩ := h (fun p hp => hs p (Multiset.mem_coe.2 (List.mem_filter.1 (Multiset.mem_coe.1 hp)).1)) (by
    refine le_trans ?_ hb
    refine mul_le_mul p1 ?_ (add_nonneg hS (mul_nonneg (by positivity) ht)) (pos _)
    exact add_le_add_right (mul_le_mul_of_nonneg_right hc ht) _)
  refine ⟨f, le_trans hf ?_⟩
  refine add_le_add (mul_le_mul_of_nonneg_right (by linarith) hS) ?_
  refine mul_le_mul_of_nonneg_right ?_ ht
  exact mul_le_mul hc p3 (pos _) (by positivity)

theorem dotCell_rounded (M : FpFma V) (hz : ∀ x : V, (x == 0) = true → M.val x = 0) {τ : Ty} {ndim : Nat} {tr : Bool} {l : List (V × V)}
    {v : V} (h : DotCell τ ndim tr l v) : RoundedDot M.toFpMul (l : Multiset (V × V)) v := by
  have tree : DotTree l v → RoundedDot M.toFpMul (l : Multiset (V × V)) v := fun h => pair_dot M.toFpMul h
  have fma : v = fmaFold l → RoundedDot M.toFpMul (l : Multiset (V × V)) v := fun h => h ▸ fma_dot M l
  have skip : DotTree (l.filter fun q => !(q.2 == 0)) v → RoundedDot M.toFpMul (l : Multiset (V × V)) v := fun h =>
    RoundedDot.of_filter (fun p _ hp => by rw [hz p.2 (by simpa using hp), mul_zero]) (pair_dot M.toFpMul h)
  unfold DotCell at h
  by_cases hn : 2 ≤ ndim
  · rw [if_pos hn] at h
    exact tree (h ▸ dotFold_tree l)
  · rw [if_neg hn] at h
    cases τ with
    | mat f r c => cases f <;> cases tr
                   · exact fma h
                   · exact skip h
                   · exact tree h
                   · exact fma h
    | coo r c => cases tr
                 · exact tree h
                 · exact skip h
    | nd s => cases tr
              · exact tree h
              · exact skip h

/-- C86: in floating-point arithmetic, every element of the result is the sum of the products of its factors up
to the usual rounding error, for every class, build, number of threads and schedule. -/
theorem py_linalg_error (M : FpFma V) (hz : ∀ x : V, (x == 0) = true → M.val x = 0) (hm : ∀ x y : V, x * y = y * x) (env : PyEnv V)
    {v : SpVal V} (hv : v.Valid) (hs : v.ty.SizeOk v.nnz)
    (h2 : v.ty.Is2d) {fn : LinFn} {y : DenseNd V} (hy : y.Ok) {tr : Bool} {p : Nat} (hc : fn.Contraction y.shape.length tr p) {r c : Nat}
    (hrc : (if tr then v.ty.shape.reverse else v.ty.shape) = [r, c]) (hyc : y.shape[p]? = some c)
    (hpos : 0 < (y.shape.eraseIdx p).prod) (hsz : 8 * ((max r 1 * (y.shape.eraseIdx p).prod : Nat) : Int) ≤ i64Max)
    {out : PyRes (LinRes V)} (h : LinSparseDense env fn v.obj y out) :
    ∃ d, out = .ret (.dense d) ∧
      ContractsBy (fun l x => RoundedDot M.toFpMul (l : Multiset (V × V)) x) v.stores tr r p y d := by
  obtain ⟨d, e, hd⟩ := (py_linalg_any hm env hv hs h2 hy hc hrc hyc hpos hsz).2 out h
  exact ⟨d, e, hd.imp fun l x hx => dotCell_rounded M hz hx⟩

end

/-- C86: binary64.  Where the factors are multiples of powers of two and the products stay below `2 ^ 53` units
(whole numbers, say), the result is the exact one, for every class and in every execution. -/
theorem py_linalg_unit (env : PyEnv B64) {v : SpVal B64} (hv : v.Valid) (hs : v.ty.SizeOk v.nnz)
    (h2 : v.ty.Is2d) {fn : LinFn} {y : DenseNd B64} (hy : y.Ok) {tr : Bool} {p : Nat} (hc : fn.Contraction y.shape.length tr p) {r c : Nat}
    (hrc : (if tr then v.ty.shape.reverse else v.ty.shape) = [r, c]) (hyc : y.shape[p]? = some c)
    (hpos : 0 < (y.shape.eraseIdx p).prod) (hsz : 8 * ((max r 1 * (y.shape.eraseIdx p).prod : Nat) : Int) ≤ i64Max)
    {out : PyRes (LinRes B64)} (h : LinSparseDense env fn v.obj y out) :
    ∃ d, out = .ret (.dense d) ∧ ContractsBy (fun l x => UnitPairs l → x = exactDot l) v.stores tr r p y d := by
  obtain ⟨d, e, hd⟩ := (py_linalg_any B64.mul_comm' env hv hs h2 hy hc hrc hyc hpos hsz).2 out h
  refine ⟨d, e, hd.imp fun l x hx hl => ?_⟩
  have tree : DotTree l x → x = exactDot l := fun h => pairs_exact hl h
  have fma : x = fmaFold l → x = exactDot l := fun h => by
    obtain ⟨e, f, h1, h2, h3, h4⟩ := hl
    rw [h]
    exact B64.fma_exact h1 h2 l h3 h4
  have skip : DotTree (l.filter fun q => !(q.2 == 0)) x → x = exactDot l := fun h =>
    (pairs_exact (hl.filter _) h).trans exactDot_filter
  unfold DotCell at hx
  by_cases hn : 2 ≤ y.shape.length
  · rw [if_pos hn] at hx
    exact tree (hx ▸ dotFold_tree l)
  · rw [if_neg hn] at hx
    generalize v.ty = τ at hx
    cases τ with
    | mat f r c => cases f <;> cases tr
                   · exact fma hx
                   · exact skip hx
                   · exact tree hx
                   · exact fma hx
    | coo r c => cases tr
                 · exact tree hx
                 · exact skip hx
    | nd s => cases tr
              · exact tree hx
              · exact skip hx

/-! ### NaN -/

section
variable [Zero V] [Add V] [Mul V] [BEq V] [HasFma V] [HasNan V]

/-- A sum with a `NaN` among its terms is a `NaN`. -/
theorem sumTree_nan {V : Type} [Zero V] [Add V] [HasNan V] (hnan : ∀ x y : V, isNan x = true ∨ isNan y = true → isNan (x + y) = true)
    {s : Multiset V} {v : V} (h : AddTree s v) (hs : ∃ x ∈ s, isNan x = true) : isNan v = true := by
  induction h with
  | zero => obtain ⟨x, hx, -⟩ := hs; simp at hx
  | leaf x => obtain ⟨y, hy, hn⟩ := hs; rw [Multiset.mem_singleton] at hy; rwa [hy] at hn
  | node _ _ ih1 ih2 =>
    obtain ⟨x, hx, hn⟩ := hs
    rcases Multiset.mem_add.1 hx with hx | hx
    · exact hnan _ _ (.inl (ih1 ⟨x, hx, hn⟩))
    · exact hnan _ _ (.inr (ih2 ⟨x, hx, hn⟩))

theorem dotTree_nan (ha : ∀ x y : V, isNan x = true ∨ isNan y = true → isNan (x + y) = true)
    (hp : ∀ x y : V, isNan x = true ∨ isNan y = true → isNan (x * y) = true) {l : List (V × V)} {v : V} (h : DotTree l v)
    (hl : ∃ q ∈ l, isNan q.1 = true ∨ isNan q.2 = true) : isNan v = true := by
  obtain ⟨q, hq, hn⟩ := hl
  exact sumTree_nan ha h ⟨q.1 * q.2, Multiset.mem_coe.2 (List.mem_map.2 ⟨q, hq, rfl⟩), hp _ _ hn⟩

theorem fmaFold_nan (hf : ∀ x y z : V, isNan x = true ∨ isNan y = true ∨ isNan z = true → isNan (mulAdd x y z) = true)
    {l : List (V × V)} (hl : ∃ q ∈ l, isNan q.1 = true ∨ isNan q.2 = true) : isNan (fmaFold l) = true := by
  unfold fmaFold
  induction l using List.reverseRecOn with
  | nil => obtain ⟨q, hq, -⟩ := hl; cases hq
  | append_singleton l p ih =>
    rw [List.foldl_append]
    obtain ⟨q, hq, hn⟩ := hl
    refine hf _ _ _ ?_
    rcases List.mem_append.1 hq with hq | hq
    · exact .inr (.inr (ih ⟨q, hq, hn⟩))
    · rw [List.mem_singleton.1 hq] at hn
      rcases hn with hn | hn
      · exact .inl hn
      · exact .inr (.inl hn)

/-- C86: a `NaN` among the factors of an element makes the element a `NaN`, except that a stored `NaN` with a
weight of zero is passed over when rows of a `CSR` or `COO` are contracted with a vector. -/
theorem py_linalg_nan (ha : ∀ x y : V, isNan x = true ∨ isNan y = true → isNan (x + y) = true)
    (hp : ∀ x y : V, isNan x = true ∨ isNan y = true → isNan (x * y) = true)
    (hf : ∀ x y z : V, isNan x = true ∨ isNan y = true ∨ isNan z = true → isNan (mulAdd x y z) = true)
    (hm : ∀ x y : V, x * y = y * x) (env : PyEnv V)
    {v : SpVal V} (hv : v.Valid) (hs : v.ty.SizeOk v.nnz)
    (h2 : v.ty.Is2d) {fn : LinFn} {y : DenseNd V} (hy : y.Ok) {tr : Bool} {p : Nat} (hc : fn.Contraction y.shape.length tr p) {r c : Nat}
    (hrc : (if tr then v.ty.shape.reverse else v.ty.shape) = [r, c]) (hyc : y.shape[p]? = some c)
    (hpos : 0 < (y.shape.eraseIdx p).prod) (hsz : 8 * ((max r 1 * (y.shape.eraseIdx p).prod : Nat) : Int) ≤ i64Max)
    {out : PyRes (LinRes V)} (h : LinSparseDense env fn v.obj y out) :
    ∃ d, out = .ret (.dense d) ∧
      ContractsBy (fun l x => (∃ q ∈ l, (isNan q.1 = true ∨ isNan q.2 = true) ∧ ((q.2 == 0) = false ∨ tr = false ∨
        ∃ r c, v.ty = .mat .csc r c)) → isNan x = true) v.stores tr r p y d := by
  obtain ⟨d, e, hd⟩ := (py_linalg_any hm env hv hs h2 hy hc hrc hyc hpos hsz).2 out h
  refine ⟨d, e, hd.imp fun l x hx => ?_⟩
  rintro ⟨q, hq, hn, hw⟩
  have tree : DotTree l x → isNan x = true := fun h => dotTree_nan ha hp h ⟨q, hq, hn⟩
  have fma : x = fmaFold l → isNan x = true := fun h => h ▸ fmaFold_nan hf ⟨q, hq, hn⟩
  have skip : (q.2 == 0) = false → DotTree (l.filter fun q => !(q.2 == 0)) x → isNan x = true := fun h0 h =>
    dotTree_nan ha hp h ⟨q, List.mem_filter.2 ⟨hq, by simp [h0]⟩, hn⟩
  unfold DotCell at hx
  by_cases hn : 2 ≤ y.shape.length
  · rw [if_pos hn] at hx
    exact tree (hx ▸ dotFold_tree l)
  · rw [if_neg hn] at hx
    generalize v.ty = τ at hx hw
    cases τ with
    | mat f r c => cases f <;> cases tr
                   · exact fma hx
                   · exact skip (by simpa using hw) hx
                   · exact tree hx
                   · exact fma hx
    | coo r c => cases tr
                 · exact tree hx
                 · exact skip (by simpa using hw) hx
    | nd s => cases tr
              · exact tree hx
              · exact skip (by simpa using hw) hx

end

/-- A 1 × 1 matrix whose entry is infinite (or `NaN`). -/
def exDotInf : Comp B64 := ⟨1, 1, [0, 1], [0], [.special]⟩
theorem exDotInf_wf : exDotInf.WF :=
  ((csr_fromParts_iff 1 1 [0, 1] [0] [B64.special] (by decide) ⟨1, 1, [0, 1], [0], [.special]⟩).1 rfl).2.2

/-- C86, a disagreement between the classes: `vecdot(x, [0.0], axis=0)` with one infinite entry is `[0.0]` for
a `CSR` and not finite for a `CSC` (as for NumPy), in every execution. -/
theorem py_vecdot_classes_disagree (env : PyEnv B64) (out : PyRes (LinRes B64)) :
    (LinSparseDense env (.vecdot (some 0)) (SpVal.mat .csr exDotInf).obj ⟨[1], [0]⟩ out ↔ out = .ret (.dense ⟨[1], [0]⟩)) ∧
    (LinSparseDense env (.vecdot (some 0)) (SpVal.mat .csc exDotInf).obj ⟨[1], [0]⟩ out ↔ out = .ret (.dense ⟨[1], [.special]⟩)) := by
  have h0 : (0 : B64) + 0 = 0 := by
    show B64.ofRat (0 + 0) = .fin 0
    rw [add_zero]; exact B64.ofRat_rep B64.rep_zero
  have hz : ((0 : B64) == 0) = true := decide_eq_true (rfl : (0 : ℚ) = 0)
  have one : ∀ (f : Fmt) (w : B64), (∀ x, DotCell (SpVal.mat f exDotInf).ty 1 true [(.special, 0)] x → x = w) →
      (LinSparseDense env (.vecdot (some 0)) (SpVal.mat f exDotInf).obj ⟨[1], [0]⟩ out ↔ out = .ret (.dense ⟨[1], [w]⟩)) := by
    intro f w hw
    obtain ⟨⟨o, ho⟩, h⟩ := py_linalg_any B64.mul_comm' env (v := .mat f exDotInf) exDotInf_wf (by cases f <;> decide)
      (by cases f <;> trivial) (fn := .vecdot (some 0)) (y := ⟨[1], [0]⟩) ⟨rfl, by decide⟩ (tr := true) (p := 0) ⟨rfl, rfl, rfl⟩ (r := 1) (c := 1)
      (by cases f <;> rfl) rfl (by decide) (by decide)
    have key : ∀ o, LinSparseDense env (.vecdot (some 0)) (SpVal.mat f exDotInf).obj ⟨[1], [0]⟩ o → o = .ret (.dense ⟨[1], [w]⟩) := by
      intro o ho
      obtain ⟨⟨s, d⟩, rfl, hs, hl, hd⟩ := h o ho
      obtain rfl : s = [1] := hs
      obtain ⟨x, rfl⟩ := List.length_eq_one_iff.1 (show d.length = 1 from hl)
      have := hd [0] (.cons ⟨by decide, by decide⟩ .nil)
      have e : dotTerms (SpVal.mat f exDotInf).stores true 0 (⟨[1], [0]⟩ : DenseNd B64) [0] = [(.special, 0)] := by cases f <;> rfl
      rw [e] at this
      rw [hw x this]
    exact ⟨key out, fun e => by rw [e, ← key o ho]; exact ho⟩
  refine ⟨one .csr 0 fun x hx => ?_, one .csc .special fun x hx => ?_⟩
  · have hx : DotTree (List.filter (fun q : B64 × B64 => !(q.2 == 0)) [(.special, 0)]) x := hx
    refine (AddTree.single (x := (0 : B64)) h0 h0 h0 hx).1 ?_
    simp [hz]
  · exact hx

/-! ### Examples -/

section
local instance dotMinMaxSat : HasMinMax Sat := ⟨fun a b => if a.n ≤ b.n then a else b, fun a b => if a.n ≤ b.n then b else a,
  fun a b => if a.n ≤ b.n then a else b, fun a b => if a.n ≤ b.n then b else a, ⟨8⟩, ⟨-8⟩⟩
local instance dotSqrtSat : HasSqrt Sat := ⟨id⟩
/-- One cut at the end. -/
local instance dotFmaSat : HasFma Sat := ⟨fun a b c => Sat.cut (a.n * b.n + c.n)⟩

theorem sat_mul_comm (x y : Sat) : x * y = y * x := by
  show Sat.cut (x.n * y.n) = Sat.cut (y.n * x.n)
  rw [Int.mul_comm]

/-- `matmul` of `[[0, -4, 0], [3, 0, -5]]` (a program with `CSR` value) with `[4, 1, 1]`: fused
multiply-adds in storage order, so `3 · 4` is cut off to 8 before `-5 · 1` is added. -/
example (dbg : Bool) (out : PyRes (LinRes Sat)) :
    exSatC.Linalg (exEnvSat dbg 4) .matmul ⟨[3], [⟨4⟩, ⟨1⟩, ⟨1⟩]⟩ out ↔ out = .ret (.dense ⟨[2], [⟨-4⟩, ⟨3⟩]⟩) := by
  have h := fun dbg => prog_linalg_any sat_mul_comm (exEnvSat_ok dbg (threads := 4) (by decide)) exSatC_lits (by decide +kernel) trivial
    (τ := .mat .csr 2 3) (by decide +kernel) trivial (fn := .matmul) (y := ⟨[3], [⟨4⟩, ⟨1⟩, ⟨1⟩]⟩) ⟨rfl, by decide⟩ (tr := false) (p := 0)
    ⟨rfl, .inl ⟨rfl, rfl⟩⟩ (r := 2) (c := 3) rfl rfl (by decide) (by decide)
  have key : ∀ o, exSatC.Linalg (exEnvSat dbg 4) .matmul ⟨[3], [⟨4⟩, ⟨1⟩, ⟨1⟩]⟩ o → o = .ret (.dense ⟨[2], [⟨-4⟩, ⟨3⟩]⟩) := by
    intro o ho
    obtain ⟨⟨s, d⟩, rfl, hs, hl, hd⟩ := (h dbg).2 o ho
    obtain rfl : s = [2] := hs
    obtain ⟨x, y, rfl⟩ := List.length_eq_two.1 (show d.length = 2 from hl)
    have h1 : x = fmaFold (dotTerms exSatC.stores false 0 (⟨[3], [⟨4⟩, ⟨1⟩, ⟨1⟩]⟩ : DenseNd Sat) [0]) :=
      hd [0] (.cons ⟨by decide, by decide⟩ .nil)
    have h2 : y = fmaFold (dotTerms exSatC.stores false 0 (⟨[3], [⟨4⟩, ⟨1⟩, ⟨1⟩]⟩ : DenseNd Sat) [1]) :=
      hd [1] (.cons ⟨by decide, by decide⟩ .nil)
    rw [h1, h2]
    have e : [fmaFold (dotTerms exSatC.stores false 0 (⟨[3], [⟨4⟩, ⟨1⟩, ⟨1⟩]⟩ : DenseNd Sat) [0]),
        fmaFold (dotTerms exSatC.stores false 0 (⟨[3], [⟨4⟩, ⟨1⟩, ⟨1⟩]⟩ : DenseNd Sat) [1])] = [(⟨-4⟩ : Sat), ⟨3⟩] := by decide +kernel
    rw [e]
  obtain ⟨o, ho⟩ := (h dbg).1
  exact ⟨key out, fun e => by rw [e, ← key o ho]; exact ho⟩

/-- The same for the product with a 3 × 2 matrix: every rounding of a product and of a sum counts. -/
example (dbg dbg' : Bool) (out : PyRes (LinRes Sat)) :
    exSatC.Linalg (exEnvSat dbg 4) (.tensordot (.int 1)) ⟨[3, 2], [⟨4⟩, ⟨1⟩, ⟨1⟩, ⟨2⟩, ⟨1⟩, ⟨3⟩]⟩ out ↔
      exSatC.Linalg (exEnvSat dbg' 1) (.tensordot (.int 1)) ⟨[3, 2], [⟨4⟩, ⟨1⟩, ⟨1⟩, ⟨2⟩, ⟨1⟩, ⟨3⟩]⟩ out :=
  prog_linalg_bits sat_mul_comm exSatC_lits (by decide +kernel) trivial (τ := .mat .csr 2 3) (by decide +kernel) trivial
    (fn := .tensordot (.int 1)) (y := ⟨[3, 2], [⟨4⟩, ⟨1⟩, ⟨1⟩, ⟨2⟩, ⟨1⟩, ⟨3⟩]⟩) ⟨rfl, by decide⟩ (tr := false) (p := 0)
    ⟨rfl, by decide, rfl, .inl rfl⟩ (.inl (by decide)) (r := 2) (c := 3) rfl rfl (by decide) (by decide)
    (exEnvSat_ok dbg (by decide)) (exEnvSat_ok dbg' (by decide)) out
example : dotFold (dotTerms exSatC.stores false 0 (⟨[3, 2], [⟨4⟩, ⟨1⟩, ⟨1⟩, ⟨2⟩, ⟨1⟩, ⟨3⟩]⟩ : DenseNd Sat) [1, 0]) = (⟨3⟩ : Sat) ∧
    dotFold (dotTerms exSatC.stores false 0 (⟨[3, 2], [⟨4⟩, ⟨1⟩, ⟨1⟩, ⟨2⟩, ⟨1⟩, ⟨3⟩]⟩ : DenseNd Sat) [1, 1]) = (⟨-5⟩ : Sat) := by
  decide +kernel

/-- The same numbers as `CSC`. -/
example (env env' : PyEnv Sat) (out : PyRes (LinRes Sat)) :
    LinSparseDense env .matmul (SpVal.mat .csr ⟨2, 3, [0, 1, 3], [1, 0, 2], [⟨4⟩, ⟨-3⟩, ⟨5⟩]⟩).obj ⟨[2, 3, 1], [⟨4⟩, ⟨1⟩, ⟨1⟩, ⟨2⟩, ⟨1⟩, ⟨3⟩]⟩ out ↔
      LinSparseDense env' .matmul (SpVal.mat .csc ⟨3, 2, [0, 1, 2, 3], [1, 0, 1], [⟨-3⟩, ⟨4⟩, ⟨5⟩]⟩).obj
        ⟨[2, 3, 1], [⟨4⟩, ⟨1⟩, ⟨1⟩, ⟨2⟩, ⟨1⟩, ⟨3⟩]⟩ out := by
  refine py_linalg_formats sat_mul_comm (v := .mat .csr ⟨2, 3, [0, 1, 3], [1, 0, 2], [⟨4⟩, ⟨-3⟩, ⟨5⟩]⟩)
    (w := .mat .csc ⟨3, 2, [0, 1, 2, 3], [1, 0, 1], [⟨-3⟩, ⟨4⟩, ⟨5⟩]⟩)
    ((csr_fromParts_iff 2 3 [0, 1, 3] [1, 0, 2] [(⟨4⟩ : Sat), ⟨-3⟩, ⟨5⟩] (by decide) ⟨2, 3, [0, 1, 3], [1, 0, 2], [⟨4⟩, ⟨-3⟩, ⟨5⟩]⟩).1 rfl).2.2
    (by decide) trivial
    ((csr_fromParts_iff 3 2 [0, 1, 2, 3] [1, 0, 1] [(⟨-3⟩ : Sat), ⟨4⟩, ⟨5⟩] (by decide) ⟨3, 2, [0, 1, 2, 3], [1, 0, 1], [⟨-3⟩, ⟨4⟩, ⟨5⟩]⟩).1 rfl).2.2
    (by decide) trivial rfl (fun i hi => ?_) (fn := .matmul) (y := ⟨[2, 3, 1], [⟨4⟩, ⟨1⟩, ⟨1⟩, ⟨2⟩, ⟨1⟩, ⟨3⟩]⟩) ⟨rfl, by decide⟩ (by decide) (p := 1)
    ⟨rfl, .inr ⟨by decide, rfl⟩⟩ (r := 2) (c := 3) rfl rfl (by decide) (by decide) env env' out
  match i, hi with
  | 0, _ => decide +kernel
  | 1, _ => decide +kernel
  | i + 2, hi => exact absurd (show i + 2 < 2 from hi) (by omega)

end

/-- Binary64: `[[3, -1, 5]] @ [1/2, 1, 5/2]`, for every class, has the exact result 13. -/
example (env : PyEnv B64) {out : PyRes (LinRes B64)}
    (h : LinSparseDense env .matmul (SpVal.coo (⟨1, 3, [0, 0, 0], [0, 1, 2], [.fin 3, .fin (-1), .fin 5]⟩ : Coo B64)).obj
      ⟨[3], [.fin (1 / 2), .fin 1, .fin (5 / 2)]⟩ out) : ∃ d, out = .ret (.dense d) ∧ d.elem [0] = .fin 13 := by
  have hv : (SpVal.coo (⟨1, 3, [0, 0, 0], [0, 1, 2], [.fin 3, .fin (-1), .fin 5]⟩ : Coo B64)).Valid :=
    ⟨⟨rfl, rfl, by decide, by decide⟩, by show ∀ i ∈ ([0, 0, 0] : List Int), i ≤ i64Max; decide, by show ∀ i ∈ ([0, 1, 2] : List Int), i ≤ i64Max; decide⟩
  obtain ⟨d, e, hs, -, hd⟩ := py_linalg_unit env hv (show Ty.SizeOk 3 (.coo 1 3) by decide) trivial (fn := .matmul)
    (y := ⟨[3], [.fin (1 / 2), .fin 1, .fin (5 / 2)]⟩) ⟨rfl, by decide⟩ (tr := false) (p := 0) ⟨rfl, .inl ⟨rfl, rfl⟩⟩ (r := 1) (c := 3) rfl rfl
    (by decide) (by decide) h
  refine ⟨d, e, ?_⟩
  rw [hd [0] (by rw [hs]; exact .cons ⟨by decide, by decide⟩ .nil) exDot_unit]
  show exactDot [(.fin 3, .fin (1 / 2)), (.fin (-1), .fin 1), (.fin 5, .fin (5 / 2))] = _
  unfold exactDot
  simp only [List.map_cons, List.map_nil, List.sum_cons, List.sum_nil, B64.toRat]
  norm_num

/-- The error bound for binary64. -/
example (env : PyEnv B64) {out : PyRes (LinRes B64)}
    (h : LinSparseDense env (.vecdot (some 0)) (SpVal.mat .csr (exStat (.fin 3) (.fin (1 / 8)))).obj ⟨[2], [.fin 7, .fin 0]⟩ out) :
    ∃ d, out = .ret (.dense d) ∧ RoundedDot B64.fp.toFpMul (([(.fin 3, .fin 7)] : List (B64 × B64)) : Multiset (B64 × B64)) (d.elem [0]) := by
  obtain ⟨d, e, hs, -, hd⟩ := py_linalg_error B64.fp (fun x hx => by
      cases x with
      | special => rfl
      | fin q =>
        have : decide (q = 0) = true := hx
        exact of_decide_eq_true this)
    B64.mul_comm' env (v := .mat .csr (exStat (.fin 3) (.fin (1 / 8)))) (exStat_wf _ _) (show Ty.SizeOk 2 (.mat .csr 2 3) by decide) trivial
    (fn := .vecdot (some 0)) (y := ⟨[2], [.fin 7, .fin 0]⟩) ⟨rfl, by decide⟩ (tr := true) (p := 0) ⟨rfl, rfl, rfl⟩ (r := 3) (c := 2) rfl rfl
    (by decide) (by decide) h
  exact ⟨d, e, hd [0] (by rw [hs]; exact .cons ⟨by decide, by decide⟩ .nil)⟩

section
/-- Whole numbers and a `NaN`. -/
local instance dotZero : Zero (Option Int) := ⟨some 0⟩
local instance dotAdd : Add (Option Int) := ⟨fun a b => match a, b with | some x, some y => some (x + y) | _, _ => none⟩
local instance dotMul : Mul (Option Int) := ⟨fun a b => match a, b with | some x, some y => some (x * y) | _, _ => none⟩
local instance dotFma : HasFma (Option Int) := ⟨fun a b c => a * b + c⟩
local instance dotBeq : BEq (Option Int) := ⟨fun a b => match a, b with | some x, some y => decide (x = y) | _, _ => false⟩
local instance dotNan : HasNan (Option Int) := ⟨Option.isNone, none⟩

theorem opt_mul_comm (x y : Option Int) : x * y = y * x := by
  cases x <;> cases y <;> try rfl
  rename_i a b
  show some (a * b) = some (b * a)
  rw [Int.mul_comm]
theorem opt_add_nan (x y : Option Int) (h : isNan x = true ∨ isNan y = true) : isNan (x + y) = true := by
  cases x <;> cases y <;> first | rfl | (rcases h with h | h <;> cases h)
theorem opt_mul_nan (x y : Option Int) (h : isNan x = true ∨ isNan y = true) : isNan (x * y) = true := by
  cases x <;> cases y <;> first | rfl | (rcases h with h | h <;> cases h)

/-- `[[3, 0, NaN], [0, 0, 0]] @ [1, 2, 0]`: the `NaN` counts although its weight is 0. -/
example (env : PyEnv (Option Int)) {out : PyRes (LinRes (Option Int))}
    (h : LinSparseDense env .matmul (SpVal.mat .csr (exStat (some 3) none)).obj ⟨[3], [some 1, some 2, some 0]⟩ out) :
    ∃ d, out = .ret (.dense d) ∧ isNan (d.elem [0]) = true := by
  obtain ⟨d, e, hs, -, hd⟩ := py_linalg_nan opt_add_nan opt_mul_nan
    (fun x y z h => opt_add_nan _ _ (by rcases h with h | h | h; exacts [.inl (opt_mul_nan _ _ (.inl h)), .inl (opt_mul_nan _ _ (.inr h)), .inr h]))
    opt_mul_comm env (v := .mat .csr (exStat (some 3) none)) (exStat_wf _ _) (show Ty.SizeOk 2 (.mat .csr 2 3) by decide) trivial
    (fn := .matmul) (y := ⟨[3], [some 1, some 2, some 0]⟩) ⟨rfl, by decide⟩ (tr := false) (p := 0) ⟨rfl, .inl ⟨rfl, rfl⟩⟩ (r := 2) (c := 3) rfl rfl
    (by decide) (by decide) h
  refine ⟨d, e, hd [0] (by rw [hs]; exact .cons ⟨by decide, by decide⟩ .nil) ⟨(none, some 0), ?_, .inl rfl, .inr (.inl rfl)⟩⟩
  show _ ∈ [((some 3 : Option Int), (some 1 : Option Int)), (none, some 0)]
  exact List.mem_cons_of_mem _ List.mem_cons_self

/-- `[[3, 0, 4], [0, 0, 0]] @ [1, NaN, 2]`: NumPy says `[NaN, NaN]`, the sparse product does not look at the
element of a column without entries. -/
example (env : PyEnv (Option Int)) {out : PyRes (LinRes (Option Int))}
    (h : LinSparseDense env .matmul (SpVal.mat .csr (exStat (some 3) (some 4))).obj ⟨[3], [some 1, none, some 2]⟩ out) :
    ∃ d, out = .ret (.dense d) ∧ d.elem [0] = some 11 ∧ d.elem [1] = some 0 := by
  obtain ⟨d, e, hs, -, hd⟩ := (py_linalg_any opt_mul_comm env (v := .mat .csr (exStat (some 3) (some 4))) (exStat_wf _ _)
    (show Ty.SizeOk 2 (.mat .csr 2 3) by decide) trivial
    (fn := .matmul) (y := ⟨[3], [some 1, none, some 2]⟩) ⟨rfl, by decide⟩ (tr := false) (p := 0) ⟨rfl, .inl ⟨rfl, rfl⟩⟩ (r := 2) (c := 3) rfl rfl
    (by decide) (by decide)).2 out h
  refine ⟨d, e, ?_, ?_⟩
  · rw [show d.elem [0] = fmaFold _ from hd [0] (by rw [hs]; exact .cons ⟨by decide, by decide⟩ .nil)]
    decide +kernel
  · rw [show d.elem [1] = fmaFold _ from hd [1] (by rw [hs]; exact .cons ⟨by decide, by decide⟩ .nil)]
    decide +kernel

end
end Lacuna
