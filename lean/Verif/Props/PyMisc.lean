import Verif.Model.PyMisc
import Verif.Lemmas.PyProg
/-
C85: data type promotion, devices, `astype` and the number of threads.
-/
namespace Lacuna

/-! ### data types -/

/-- The order of the promotable types: `int32` below `int64` and `float32`, both below `float64`. -/
def DtypeLe (a b : String) : Prop :=
  (a = "int32" ∧ b ∈ ["int32", "int64", "float32", "float64"]) ∨ (a = "int64" ∧ b ∈ ["int64", "float64"]) ∨
    (a = "float32" ∧ b ∈ ["float32", "float64"]) ∨ (a = "float64" ∧ b = "float64")

instance (a b : String) : Decidable (DtypeLe a b) := by unfold DtypeLe; exact inferInstance

/-- The four names. -/
def promotable : List String := ["int32", "int64", "float32", "float64"]

theorem canonicalDtype_eq (d : String) : canonicalDtype d = if d ∈ promotable then some d else none := by
  unfold canonicalDtype promotable
  by_cases h1 : d = "float64"
  · subst h1; rfl
  by_cases h2 : d = "float32"
  · subst h2; rfl
  by_cases h3 : d = "int64"
  · subst h3; rfl
  by_cases h4 : d = "int32"
  · subst h4; rfl
  simp [h1, h2, h3, h4]

/-- Any other name raises `TypeError`, on either side. -/
theorem promote_unknown (a b : String) (h : a ∉ promotable ∨ b ∉ promotable) : promoteDtypes a b = .error .typeError := by
  unfold promoteDtypes
  rw [canonicalDtype_eq a, canonicalDtype_eq b]
  rcases h with h | h
  · rw [if_neg h]
  · rw [if_neg h]
    split <;> rfl

/-- C85: the promotion of two of the four names is their least upper bound. -/
theorem promote_lub {a b : String} (ha : a ∈ promotable) (hb : b ∈ promotable) :
    ∃ c ∈ promotable, promoteDtypes a b = .ok c ∧ DtypeLe a c ∧ DtypeLe b c ∧
      ∀ d, DtypeLe a d → DtypeLe b d → DtypeLe c d := by
  have key : ∀ a ∈ promotable, ∀ b ∈ promotable, ∃ c ∈ promotable, promoteDtypes a b = .ok c ∧ DtypeLe a c ∧ DtypeLe b c ∧
      ∀ d ∈ promotable, DtypeLe a d → DtypeLe b d → DtypeLe c d := by decide +kernel
  obtain ⟨c, hc, h1, h2, h3, h4⟩ := key a ha b hb
  refine ⟨c, hc, h1, h2, h3, fun d hd => h4 d ?_ hd⟩
  unfold DtypeLe at hd
  unfold promotable
  rcases hd with ⟨-, h⟩ | ⟨-, h⟩ | ⟨-, h⟩ | ⟨-, h⟩ <;> simp at h ⊢ <;> tauto

/-- Promotion is commutative, for all strings. -/
theorem promote_comm (a b : String) : promoteDtypes a b = promoteDtypes b a := by
  by_cases ha : a ∈ promotable
  · by_cases hb : b ∈ promotable
    · have key : ∀ a ∈ promotable, ∀ b ∈ promotable, promoteDtypes a b = promoteDtypes b a := by decide +kernel
      exact key a ha b hb
    · rw [promote_unknown a b (.inr hb), promote_unknown b a (.inl hb)]
  · rw [promote_unknown a b (.inl ha), promote_unknown b a (.inr ha)]

theorem promote_mem {a b c : String} (h : promoteDtypes a b = .ok c) : a ∈ promotable ∧ b ∈ promotable ∧ c ∈ promotable := by
  by_cases ha : a ∈ promotable
  · by_cases hb : b ∈ promotable
    · obtain ⟨d, hd, h1, -⟩ := promote_lub ha hb
      rw [h] at h1; cases h1
      exact ⟨ha, hb, hd⟩
    · rw [promote_unknown a b (.inr hb)] at h; cases h
  · rw [promote_unknown a b (.inl ha)] at h; cases h

/-- Promotion is associative, for all strings. -/
theorem promote_assoc (a b c : String) :
    (do promoteDtypes (← promoteDtypes a b) c) = (do promoteDtypes a (← promoteDtypes b c)) := by
  by_cases ha : a ∈ promotable
  · by_cases hb : b ∈ promotable
    · by_cases hc : c ∈ promotable
      · have key : ∀ a ∈ promotable, ∀ b ∈ promotable, ∀ c ∈ promotable,
            ((promoteDtypes a b).bind fun d => promoteDtypes d c) = (promoteDtypes b c).bind fun d => promoteDtypes a d := by
          decide +kernel
        exact key a ha b hb c hc
      · rw [promote_unknown b c (.inr hc)]
        show ((promoteDtypes a b).bind fun d => promoteDtypes d c) = .error .typeError
        obtain ⟨d, -, h, -⟩ := promote_lub ha hb
        rw [h]
        exact promote_unknown d c (.inr hc)
    · rw [promote_unknown a b (.inr hb), promote_unknown b c (.inl hb)]; rfl
  · rw [promote_unknown a b (.inl ha)]
    show Except.error PyErr.typeError = ((promoteDtypes b c).bind fun d => promoteDtypes a d)
    cases h : promoteDtypes b c with
    | ok d => exact (promote_unknown a d (.inl ha)).symm
    | error e =>
      by_cases hb : b ∈ promotable
      · by_cases hc : c ∈ promotable
        · obtain ⟨d, -, h1, -⟩ := promote_lub hb hc; rw [h1] at h; cases h
        · rw [promote_unknown b c (.inr hc)] at h; cases h; rfl
      · rw [promote_unknown b c (.inl hb)] at h; cases h; rfl

/-- A value never gets fewer bytes. -/
theorem promote_size {a b c : String} (h : promoteDtypes a b = .ok c) :
    ∃ m n k, dtypeSize a = .ok m ∧ dtypeSize b = .ok n ∧ dtypeSize c = .ok k ∧ max m n ≤ k := by
  obtain ⟨ha, hb, -⟩ := promote_mem h
  have key : ∀ a ∈ promotable, ∀ b ∈ promotable, ∀ c ∈ promotable, promoteDtypes a b = .ok c →
      ∃ m ∈ [4, 8], ∃ n ∈ [4, 8], ∃ k ∈ [4, 8], dtypeSize a = .ok m ∧ dtypeSize b = .ok n ∧ dtypeSize c = .ok k ∧ max m n ≤ k := by
    decide +kernel
  obtain ⟨m, -, n, -, k, -, h⟩ := key a ha b hb c (promote_mem h).2.2 h
  exact ⟨m, n, k, h⟩

/-- The names with a size are the integer and the floating-point names. -/
theorem dtypeSize_known (d : String) : (∃ n, dtypeSize d = .ok n) ↔ isIntDtype d = true ∨ isFloatDtype d = true := by
  unfold dtypeSize isIntDtype isFloatDtype
  by_cases h1 : d = "float32" <;> by_cases h2 : d = "int32" <;> by_cases h3 : d = "uint32" <;> by_cases h4 : d = "float64" <;>
    by_cases h5 : d = "int64" <;> by_cases h6 : d = "uint64" <;> simp [h1, h2, h3, h4, h5, h6]

/-- `uint32` and `uint64` are integer types with a size, but do not promote, not even with themselves. -/
theorem promote_unsigned (d b : String) (hd : d = "uint32" ∨ d = "uint64") :
    isIntDtype d = true ∧ (∃ n, dtypeSize d = .ok n) ∧ promoteDtypes d b = .error .typeError ∧
      promoteDtypes b d = .error .typeError := by
  have hn : d ∉ promotable := by rcases hd with rfl | rfl <;> decide
  refine ⟨?_, ?_, promote_unknown d b (.inl hn), promote_unknown b d (.inr hn)⟩
  · rcases hd with rfl | rfl <;> rfl
  · rcases hd with rfl | rfl <;> exact ⟨_, rfl⟩

/-- `int32` and `float32` promote to `float32`, which cannot hold every `int32`: the 32-bit integer
2²⁴ + 1 is not `m · 2ᵉ` with a significand below 2²⁴.  (NumPy promotes to `float64`.) -/
theorem promote_int32_float32 :
    promoteDtypes "int32" "float32" = .ok "float32" ∧
      ∃ n : Int, n < 2 ^ 31 ∧ ∀ (m : Int) (e : Nat), m.natAbs < 2 ^ 24 → n ≠ m * 2 ^ e := by
  refine ⟨by decide +kernel, 2 ^ 24 + 1, by decide, fun m e hm h => ?_⟩
  cases e with
  | zero => rw [pow_zero, mul_one] at h; subst h; revert hm; decide
  | succ e =>
    have : (2 : Int) ∣ 2 ^ 24 + 1 := by rw [h]; exact Dvd.intro_left (m * 2 ^ e) (by rw [pow_succ]; ring)
    revert this; decide

/-- `int64` and `float32` meet in `float64`. -/
example : "int64" ∈ promotable ∧ "float32" ∈ promotable ∧ promoteDtypes "int64" "float32" = .ok "float64" := by decide +kernel

/-! ### devices -/

/-- A device is valid if and only if it is listed; the default one is; `device_info` answers for the
valid ones and raises `ValueError` for the others. -/
theorem devices (d : String) :
    (isValidDevice d = true ↔ d ∈ listDevices) ∧ isValidDevice defaultDevice = true ∧
      deviceInfo d = if d ∈ listDevices then .ok (d, "cpu") else .error .valueError := by
  have h : isValidDevice d = true ↔ d ∈ listDevices := by simp [isValidDevice, listDevices]
  refine ⟨h, rfl, ?_⟩
  unfold deviceInfo
  by_cases hd : d ∈ listDevices
  · rw [if_pos hd, h.2 hd]; rfl
  · rw [if_neg hd, if_pos]
    simp only [Bool.not_eq_true']
    cases hv : isValidDevice d with
    | false => rfl
    | true => exact absurd (h.1 hv) hd

/-- `zeros` and `eye` accept the same devices, and none. -/
theorem create_device (d : Option String) : checkDevice d = .ok () ↔ ∀ x ∈ d, isValidDevice x = true := by
  cases d with
  | none => simp [checkDevice]
  | some x =>
    unfold checkDevice isValidDevice
    by_cases h : x = "cpu" <;> simp [h]

/-! ### astype -/

section
variable {V : Type}

/-- `astype(x, float64)` of a valid `CSR` matrix is a matrix with the same shape, arrays and native copy;
any other type is refused, and so is every other class. -/
theorem astype_outcome {v : SpVal V} (d : DtypeArg) (hv : v.Good) :
    nsAstype v.obj d = match (generalizing := false) v, d with
      | .mat .csr _, .float64 => .ret v.obj
      | .mat .csr _, .invalid => .raises .typeError
      | _, _ => .raises .notImplemented := by
  cases v with
  | mat f a =>
    cases f with
    | csc => cases d <;> rfl
    | csr =>
      cases d with
      | invalid => rfl
      | another => rfl
      | float64 =>
        have h := hv.held.nativeNew_false .csr
        show (PyRes.ofExcept (PyMat.new .csr (Fmt.rows .csr a) (Fmt.cols .csr a) a.indptr a.indices a.data false)).bind
          (fun y => PyRes.ret (PyObj.mat .csr y)) = PyRes.ret (PyObj.mat .csr (PyMat.of .csr a))
        unfold PyMat.new
        dsimp only
        rw [h]
        rfl
  | coo a => cases d <;> rfl
  | nd a => cases d <;> rfl

/-- `[[v]]` converts to itself. -/
example (v : V) : nsAstype (.mat .csr ⟨1, 1, [0, 1], [0], [v], some ⟨1, 1, [0, 1], [0], [v]⟩⟩) .float64 =
    .ret (.mat .csr ⟨1, 1, [0, 1], [0], [v], some ⟨1, 1, [0, 1], [0], [v]⟩⟩) := by
  have hw : (⟨1, 1, [0, 1], [0], [v]⟩ : Csr V).WF := (csr_fromParts_iff 1 1 [0, 1] [0] [v] (by decide) _).1 rfl |>.2.2
  have hg : (SpVal.mat .csr (⟨1, 1, [0, 1], [0], [v]⟩ : Comp V)).Good := ⟨hw, show Ty.SizeOk 1 (.mat .csr 1 1) by decide⟩
  exact astype_outcome .float64 hg

end

/-! ### threads -/

/-- `get_num_threads()` is positive after any history. -/
theorem threads_pos (cores avail : Nat) (env : EnvVar) (ps : List ThreadStep)
    (h : ∀ n, .set n ∈ ps → 1 ≤ n) : 1 ≤ ((Threads.init cores env).steps avail ps).get := by
  have key : ∀ (ps : List ThreadStep) (s : Threads), (∀ n, ThreadStep.set n ∈ ps → 1 ≤ n) → 1 ≤ s.current → 1 ≤ (s.steps avail ps).current := by
    intro ps
    induction ps with
    | nil => intro s _ hs; exact hs
    | cons p ps ih =>
      intro s hp hs
      refine ih _ (fun n hn => hp n (List.mem_cons_of_mem _ hn)) ?_
      cases p with
      | set n =>
        have h1 : (1 : Rat) ≤ n := hp n (by simp)
        show 1 ≤ (s.set n).current
        unfold Threads.set
        split
        · show 1 ≤ n.floor.toNat
          have : (1 : Int) ≤ n.floor := Rat.le_floor_iff.2 (by exact_mod_cast h1)
          omega
        · exact hs
      | run =>
        show 1 ≤ (s.run avail).current
        unfold Threads.run
        split <;> exact hs
      | environ e => exact hs
  have hc := key ps (Threads.init cores env) h (by show 1 ≤ max 1 cores; omega)
  unfold Threads.get
  split
  · omega
  · exact hc

theorem rat_floor_nat (n : Nat) : (n : Rat).floor = n := by
  simp [Rat.floor]

/-- `set_num_threads(n)` with a positive integer is what `get_num_threads()` returns next. -/
theorem threads_get_set (s : Threads) (n : Nat) (hn : 0 < n) : (s.set (n : Rat)).get = n := by
  have h0 : (0 : Rat) < n := by exact_mod_cast hn
  unfold Threads.set
  rw [if_pos ⟨ne_of_gt h0, h0⟩]
  show (max 1 (n : Rat).floor).toNat = n
  rw [rat_floor_nat]
  omega

/-- Zero and negative numbers are ignored. -/
theorem threads_set_nonpos (s : Threads) (n : Rat) (hn : n ≤ 0) : s.set n = s := by
  unfold Threads.set
  rw [if_neg (fun h => absurd h.2 (not_lt.2 hn))]

/-- Until the first parallel kernel has run, `set_num_threads(n)` decides the size of the pool. -/
theorem threads_before (s : Threads) (avail n : Nat) (hn : 0 < n) (hp : s.pool = none) :
    ((s.set (n : Rat)).run avail).pool = some n := by
  have h0 : (0 : Rat) < n := by exact_mod_cast hn
  unfold Threads.set
  rw [if_pos ⟨ne_of_gt h0, h0⟩]
  unfold Threads.run
  simp only [hp, rat_floor_nat]
  rw [if_pos (by omega)]
  rfl

/-- After that nothing changes it any more. -/
theorem threads_after (avail : Nat) (s : Threads) (k : Nat) (hp : s.pool = some k) (ps : List ThreadStep) :
    (s.steps avail ps).pool = some k := by
  induction ps generalizing s with
  | nil => exact hp
  | cons p ps ih =>
    refine ih _ ?_
    cases p with
    | set n =>
      show (s.set n).pool = some k
      unfold Threads.set
      split <;> exact hp
    | run =>
      show (s.run avail).pool = some k
      unfold Threads.run
      rw [hp]
      exact hp
    | environ e => exact hp

/-- So `get_num_threads()` need not be the number of threads: once a kernel has run, setting any other
number changes what is reported and not what is used. -/
theorem threads_disagree (avail : Nat) (s : Threads) (k : Nat) (hp : s.pool = some k) (n : Nat) (hn : 0 < n) (hk : n ≠ k) :
    let s' := (s.set (n : Rat)).run avail
    s'.get = n ∧ s'.pool = some k ∧ s'.get ≠ k := by
  have hset : (s.set (n : Rat)).pool = some k := threads_after avail s k hp [.set n]
  have hrun : (s.set (n : Rat)).run avail = s.set (n : Rat) := by
    unfold Threads.run; rw [hset]
  dsimp only
  rw [hrun, threads_get_set s n hn]
  exact ⟨rfl, hset, hk⟩

/-- Import, one kernel on 8 cores, `set_num_threads(2)`: two threads reported, eight used. -/
example : let s := (Threads.init 8 .unset).steps 8 [.run, .set 2, .run]
    s.get = 2 ∧ s.pool = some 8 := by decide +kernel

end Lacuna
