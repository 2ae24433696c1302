import Verif.Lemmas.AccumTree
import Verif.Lemmas.Binary64
import Verif.Model.Sums
/-
Sums and products in rounded arithmetic.
-/
namespace Lacuna
universe u
variable {V : Type u}

theorem AddTree.rounded [Zero V] [Add V] (M : FpAdd V) {s : Multiset V} {v : V} (h : AddTree s v) : RoundedSum M s v :=
  fun hs hb => h.err M hs hb

/-! ### Reductions -/

section
variable [Zero V] [Add V]

/-- The four lanes and the remaining values hold everything that was added. -/
def LanesTree (acc : (V × V × V × V) × List V) (s : Multiset V) : Prop :=
  ∃ ta tb tc td : Multiset V, AddTree ta acc.1.1 ∧ AddTree tb acc.1.2.1 ∧ AddTree tc acc.1.2.2.1 ∧
    AddTree td acc.1.2.2.2 ∧ ta + tb + tc + td + (acc.2 : Multiset V) = s

theorem lanes4_tree : ∀ (l : List V) {a b c d : V} {sa sb sc sd : Multiset V}, AddTree sa a → AddTree sb b →
    AddTree sc c → AddTree sd d → LanesTree (lanes4 (· + ·) (a, b, c, d) l) (sa + sb + sc + sd + (l : Multiset V))
  | x0 :: x1 :: x2 :: x3 :: rest, a, b, c, d, sa, sb, sc, sd, ha, hb, hc, hd => by
    have := lanes4_tree rest (.node ha (.leaf x0)) (.node hb (.leaf x1)) (.node hc (.leaf x2)) (.node hd (.leaf x3))
    rw [lanes4]
    refine cast (congrArg _ ?_) this
    simp only [← Multiset.cons_coe, ← Multiset.singleton_add]
    abel
  | [], _, _, _, _, _, _, _, _, ha, hb, hc, hd => ⟨_, _, _, _, ha, hb, hc, hd, rfl⟩
  | [_], _, _, _, _, _, _, _, _, ha, hb, hc, hd => ⟨_, _, _, _, ha, hb, hc, hd, rfl⟩
  | [_, _], _, _, _, _, _, _, _, _, ha, hb, hc, hd => ⟨_, _, _, _, ha, hb, hc, hd, rfl⟩
  | [_, _, _], _, _, _, _, _, _, _, _, ha, hb, hc, hd => ⟨_, _, _, _, ha, hb, hc, hd, rfl⟩

theorem foldl_tree (l : List V) : ∀ {s : Multiset V} {v : V}, AddTree s v → AddTree (s + (l : Multiset V)) (l.foldl (· + ·) v) := by
  induction l with
  | nil => intro s v h; simpa using h
  | cons x l ih =>
    intro s v h
    have := ih (.node h (.leaf x))
    rw [← Multiset.cons_coe, ← Multiset.singleton_add, ← add_assoc]
    exact this

theorem chunkSum_tree (l : List V) : AddTree (l : Multiset V) (chunkSum l) := by
  obtain ⟨ta, tb, tc, td, h1, h2, h3, h4, h5⟩ := lanes4_tree l (V := V) .zero .zero .zero .zero
  have := foldl_tree (lanes4 (· + ·) (0, 0, 0, 0) l).2 (.node (.node (.node h1 h2) h3) h4)
  rw [h5, add_zero, add_zero, add_zero, zero_add] at this
  exact this

theorem chunks_tree {ls : List (List V)} {r : V} (h : Rayon (· + ·) 0 (ls.map chunkSum) r) :
    AddTree (ls.flatten : Multiset V) r := by
  generalize hm : ls.map chunkSum = m at h
  induction h generalizing ls with
  | unit =>
    rw [List.map_eq_nil_iff.1 hm]
    exact .zero
  | one x =>
    obtain ⟨l, t, rfl, rfl, h3⟩ := List.map_eq_cons_iff.1 hm
    rw [List.map_eq_nil_iff.1 h3]
    simpa using chunkSum_tree l
  | join _ _ ih1 ih2 =>
    obtain ⟨l1, l2, rfl, rfl, rfl⟩ := List.map_eq_append_iff.1 hm
    rw [List.flatten_append, ← Multiset.coe_add]
    exact .node (ih1 rfl) (ih2 rfl)

theorem sumRun_tree {data : List V} {r : V} (h : SumRun data r) : AddTree (data : Multiset V) r := by
  have := chunks_tree h
  rwa [chunksOf_flatten (by decide)] at this

end

/-! ### Products -/

theorem RoundedSum.dot [Zero V] [Add V] [Mul V] (M : FpMul V) {s : Multiset (V × V)} {g : V × V → V}
    (hg : ∀ p ∈ s, g p = p.1 * p.2 ∨ g p = p.2 * p.1) {v : V} (h : RoundedSum M.toFpAdd (s.map g) v) : RoundedDot M s v := by
  intro hs hb
  have he := M.eps_nonneg
  have ht := M.eta_nonneg
  have h1 : 1 ≤ 1 + M.eps := by linarith
  have pw : ∀ n, 1 ≤ (1 + M.eps) ^ n := fun n => one_le_pow₀ h1
  have nn : 0 ≤ (s.map fun p => |M.val p.1 * M.val p.2|).sum :=
    Multiset.sum_nonneg (by simp only [Multiset.mem_map]; rintro _ ⟨x, _, rfl⟩; exact abs_nonneg _)
  have hk : (0 : ℚ) ≤ s.card := Nat.cast_nonneg _
  -- one product
  have small : ∀ p ∈ s, |M.val p.1 * M.val p.2| ≤ M.big := by
    intro p hp
    have h2 : |M.val p.1 * M.val p.2| ≤ (s.map fun p => |M.val p.1 * M.val p.2|).sum :=
      Multiset.single_le_sum (by simp only [Multiset.mem_map]; rintro _ ⟨x, _, rfl⟩; exact abs_nonneg _) _
        (Multiset.mem_map.2 ⟨p, hp, rfl⟩)
    have h3 := pw (s.card + 1)
    nlinarith [mul_nonneg hk ht]
  have one : ∀ p ∈ s, M.Fin (g p) ∧ |M.val (g p) - M.val p.1 * M.val p.2| ≤ M.eps * |M.val p.1 * M.val p.2| + M.eta := by
    intro p hp
    rcases hg p hp with h2 | h2
    · rw [h2]; exact M.mul (hs p hp).1 (hs p hp).2 (small p hp)
    · have := M.mul (hs p hp).2 (hs p hp).1 (by rw [mul_comm]; exact small p hp)
      rw [h2]
      rwa [mul_comm (M.val p.2)] at this
  -- all products
  have all : ∀ t : Multiset (V × V), (∀ p ∈ t, p ∈ s) →
      |(t.map fun p => M.val (g p)).sum - (t.map fun p => M.val p.1 * M.val p.2).sum| ≤
        M.eps * (t.map fun p => |M.val p.1 * M.val p.2|).sum + t.card * M.eta ∧
      (t.map fun p => |M.val (g p)|).sum ≤ (1 + M.eps) * (t.map fun p => |M.val p.1 * M.val p.2|).sum + t.card * M.eta := by
    intro t
    induction t using Multiset.induction with
    | empty => intro _; simp
    | cons p t ih =>
      intro hp
      obtain ⟨i1, i2⟩ := ih fun q hq => hp q (by simp [hq])
      obtain ⟨_, e⟩ := one p (hp p (by simp))
      simp only [Multiset.map_cons, Multiset.sum_cons, Multiset.card_cons]
      push_cast
      constructor
      · rw [add_sub_add_comm]
        have := abs_add_le (M.val (g p) - M.val p.1 * M.val p.2)
          ((t.map fun p => M.val (g p)).sum - (t.map fun p => M.val p.1 * M.val p.2).sum)
        linarith
      · have := abs_sub_abs_le_abs_sub (M.val (g p)) (M.val p.1 * M.val p.2)
        linarith
  obtain ⟨a1, a2⟩ := all s fun _ h => h
  obtain ⟨f, e⟩ := h (by
    intro x hx
    obtain ⟨p, hp, rfl⟩ := Multiset.mem_map.1 hx
    exact (one p hp).1) (by
    rw [Multiset.card_map, Multiset.map_map]
    refine le_trans ?_ hb
    have : (s.map ((fun x => |M.val x|) ∘ g)).sum ≤
        (1 + M.eps) * ((s.map fun p => |M.val p.1 * M.val p.2|).sum + s.card * M.eta) := by
      refine le_trans a2 ?_
      nlinarith [mul_nonneg hk ht, mul_nonneg he (mul_nonneg hk ht)]
    rw [pow_succ, mul_assoc]
    exact mul_le_mul_of_nonneg_left this (by linarith [pw s.card]))
  refine ⟨f, ?_⟩
  rw [Multiset.card_map, Multiset.map_map, Multiset.map_map] at e
  rcases Nat.eq_zero_or_pos s.card with h0 | h0
  · have : s = 0 := Multiset.card_eq_zero.1 h0
    subst this
    simpa using e
  have tri := abs_sub_le (M.val v) (s.map (M.val ∘ g)).sum (s.map fun p => M.val p.1 * M.val p.2).sum
  have e2 : (1 + M.eps) ^ s.card = (1 + M.eps) ^ (s.card - 1) * (1 + M.eps) := by
    rw [← pow_succ]; congr 1; omega
  have p1 := pw (s.card - 1)
  rw [e2]
  change |(s.map (M.val ∘ g)).sum - _| ≤ _ at a1
  change (s.map ((fun x => |M.val x|) ∘ g)).sum ≤ _ at a2
  generalize (1 + M.eps) ^ (s.card - 1) = P at *
  have := mul_le_mul_of_nonneg_left a2 (by linarith : 0 ≤ P - 1)
  nlinarith

theorem AddTree.dot [Zero V] [Add V] [Mul V] (M : FpMul V) {s : Multiset (V × V)} {g : V × V → V}
    (hg : ∀ p ∈ s, g p = p.1 * p.2 ∨ g p = p.2 * p.1) {v : V} (h : AddTree (s.map g) v) : RoundedDot M s v :=
  (h.rounded M.toFpAdd).dot M hg

/-- The fused accumulation of a line. -/
theorem fma_dot [Zero V] [Add V] [Mul V] [HasFma V] (M : FpFma V) (l : List (V × V)) :
    RoundedDot M.toFpMul (l : Multiset (V × V)) (l.foldl (fun acc p => mulAdd p.1 p.2 acc) 0) := by
  intro hs hb
  have he := M.eps_nonneg
  have ht := M.eta_nonneg
  have h1 : 1 ≤ 1 + M.eps := by linarith
  have pw : ∀ n, 1 ≤ (1 + M.eps) ^ n := fun n => one_le_pow₀ h1
  induction l using List.reverseRecOn with
  | nil => exact ⟨M.fin_zero, by simp [M.val_zero]⟩
  | append_singleton l p ih =>
    rw [List.foldl_append, List.foldl_cons, List.foldl_nil]
    simp only [← Multiset.coe_add, Multiset.coe_singleton, Multiset.card_add, Multiset.card_singleton, Multiset.map_add,
      Multiset.map_singleton, Multiset.sum_add, Multiset.sum_singleton] at hs hb ⊢
    have nn : 0 ≤ ((l : Multiset (V × V)).map fun p => |M.val p.1 * M.val p.2|).sum :=
      Multiset.sum_nonneg (by simp only [Multiset.mem_map]; rintro _ ⟨x, _, rfl⟩; exact abs_nonneg _)
    have ab : |((l : Multiset (V × V)).map fun p => M.val p.1 * M.val p.2).sum| ≤
        ((l : Multiset (V × V)).map fun p => |M.val p.1 * M.val p.2|).sum := by
      have := Multiset.abs_sum_le_sum_abs (s := (l : Multiset (V × V)).map fun p => M.val p.1 * M.val p.2)
      rwa [Multiset.map_map] at this
    generalize ((l : Multiset (V × V)).map fun p => |M.val p.1 * M.val p.2|).sum = S at *
    generalize ((l : Multiset (V × V)).map fun p => M.val p.1 * M.val p.2).sum = E at *
    generalize (Multiset.card (l : Multiset (V × V))) = n at *
    generalize l.foldl (fun acc p => mulAdd p.1 p.2 acc) 0 = v at *
    have hp := hs p (by simp)
    have np := abs_nonneg (M.val p.1 * M.val p.2)
    have hn : (0 : ℚ) ≤ n := Nat.cast_nonneg n
    have k1 := pw n
    push_cast at hb
    obtain ⟨f, e⟩ := ih (fun q hq => hs q (by simp [hq])) (by
      refine le_trans ?_ hb
      apply mul_le_mul (pow_le_pow_right₀ h1 (by omega)) _ (by nlinarith [mul_nonneg hn ht]) (by linarith [pw (n + 1 + 1)])
      nlinarith)
    have e3 : n * (1 + M.eps) ^ (n - 1) * (1 + M.eps) = n * (1 + M.eps) ^ n := by
      rcases Nat.eq_zero_or_pos n with h0 | h0
      · simp [h0]
      · rw [mul_assoc, ← pow_succ]; congr 2; omega
    have e4 : n * (1 + M.eps) ^ (n - 1) ≤ n * (1 + M.eps) ^ n :=
      mul_le_mul_of_nonneg_left (pow_le_pow_right₀ h1 (by omega)) hn
    have tv := abs_sub_abs_le_abs_sub (M.val v) E
    have t1 := abs_add_le (M.val p.1 * M.val p.2) (M.val v)
    have e5 : (1 + M.eps) ^ (n + 1 + 1) = (1 + M.eps) ^ n * (1 + M.eps) * (1 + M.eps) := by rw [pow_succ, pow_succ]
    have e6 : (1 + M.eps) ^ (n + 1) = (1 + M.eps) ^ n * (1 + M.eps) := pow_succ _ _
    rw [e5] at hb
    rw [Nat.add_sub_cancel, e6]
    push_cast
    generalize n * (1 + M.eps) ^ (n - 1) = Q at *
    generalize (1 + M.eps) ^ n = P at *
    have q1 : Q * M.eta ≤ n * P * M.eta := mul_le_mul_of_nonneg_right e4 ht
    have q2 : Q * (1 + M.eps) * M.eta = n * P * M.eta := by rw [e3]
    have hv : |M.val v| ≤ P * S + Q * M.eta := by linarith
    have pe : P ≤ P * (1 + M.eps) := by nlinarith
    have bnd : |M.val p.1 * M.val p.2 + M.val v| ≤ M.big := by
      refine le_trans ?_ hb
      have z : 0 ≤ n * M.eta := mul_nonneg hn ht
      have p2 : P ≤ P * (1 + M.eps) * (1 + M.eps) := by nlinarith
      have r1 : |M.val p.1 * M.val p.2| ≤ P * |M.val p.1 * M.val p.2| := le_mul_of_one_le_left np k1
      have r2 : P * (S + |M.val p.1 * M.val p.2| + (n + 1) * M.eta) ≤
          P * (1 + M.eps) * (1 + M.eps) * (S + |M.val p.1 * M.val p.2| + (n + 1) * M.eta) :=
        mul_le_mul_of_nonneg_right p2 (by nlinarith)
      nlinarith
    obtain ⟨g1, g2⟩ := M.fma hp.1 hp.2 f bnd
    refine ⟨g1, ?_⟩
    have t2 := abs_sub_le (M.val (mulAdd p.1 p.2 v)) (M.val p.1 * M.val p.2 + M.val v) (E + M.val p.1 * M.val p.2)
    have t3 : M.val p.1 * M.val p.2 + M.val v - (E + M.val p.1 * M.val p.2) = M.val v - E := by ring
    rw [t3] at t2
    have g3 : M.eps * |M.val p.1 * M.val p.2 + M.val v| ≤ M.eps * (|M.val p.1 * M.val p.2| + (P * S + Q * M.eta)) :=
      mul_le_mul_of_nonneg_left (by linarith) he
    have m1 : 0 ≤ (P - 1) * (1 + M.eps) * |M.val p.1 * M.val p.2| := mul_nonneg (mul_nonneg (by linarith) (by linarith)) np
    have m2 : 0 ≤ (P - 1) * M.eta := mul_nonneg (by linarith) ht
    nlinarith

/-! ### Exact sums -/

namespace B64

theorem rep_units {m e : ℤ} (h1 : -1074 ≤ e) (h2 : e ≤ 971) (hm : |m| < 2 ^ 53) : Rep (m * 2 ^ e) := by
  refine ⟨⟨m, e, rfl, hm, h1⟩, ?_⟩
  rw [abs_mul, abs_of_pos (two_zpow_pos e)]
  unfold max64
  apply mul_le_mul _ (zpow_le_zpow_right₀ (by norm_num) h2) (le_of_lt (two_zpow_pos _)) (by norm_num)
  rw [← Int.cast_abs]
  have : |m| ≤ 2 ^ 53 - 1 := by omega
  exact_mod_cast this

theorem units_lt {m e : ℤ} {b : ℚ} (h : |(m : ℚ) * 2 ^ e| ≤ b) (hb : b < 2 ^ 53 * 2 ^ e) : |m| < 2 ^ 53 := by
  have hp := two_zpow_pos e
  rw [abs_mul, abs_of_pos hp] at h
  have := lt_of_mul_lt_mul_right (lt_of_le_of_lt h hb) (le_of_lt hp)
  rw [← Int.cast_abs] at this
  exact_mod_cast this

theorem abs_sum_toRat (s : Multiset B64) : |(s.map toRat).sum| ≤ (s.map fun x => |toRat x|).sum := by
  have := Multiset.abs_sum_le_sum_abs (s := s.map toRat)
  rwa [Multiset.map_map] at this

theorem sum_units {e : ℤ} (s : Multiset B64) (hs : ∀ x ∈ s, ∃ m : ℤ, x = fin (m * 2 ^ e)) :
    ∃ m : ℤ, (s.map toRat).sum = m * 2 ^ e := by
  induction s using Multiset.induction with
  | empty => exact ⟨0, by simp⟩
  | cons x s ih =>
    obtain ⟨m, hm⟩ := ih fun y hy => hs y (by simp [hy])
    obtain ⟨n, rfl⟩ := hs x (by simp)
    refine ⟨n + m, ?_⟩
    rw [Multiset.map_cons, Multiset.sum_cons, hm]
    unfold toRat
    push_cast
    ring

/-- Multiples of one power of two whose absolute values stay below `2 ^ 53` units are added without
error, in any order. -/
theorem tree_exact {e : ℤ} (h1 : -1074 ≤ e) (h2 : e ≤ 971) {s : Multiset B64} {v : B64} (h : AddTree s v)
    (hs : ∀ x ∈ s, ∃ m : ℤ, x = fin (m * 2 ^ e)) (hb : (s.map fun x => |toRat x|).sum < 2 ^ 53 * 2 ^ e) :
    v = fin (s.map toRat).sum := by
  induction h with
  | zero => rfl
  | leaf x =>
    obtain ⟨m, rfl⟩ := hs x (by simp)
    simp [toRat]
  | @node s t a b _ _ ih1 ih2 =>
    have nn : ∀ s : Multiset B64, 0 ≤ (s.map fun x => |toRat x|).sum := fun s =>
      Multiset.sum_nonneg (by simp only [Multiset.mem_map]; rintro _ ⟨x, _, rfl⟩; exact abs_nonneg _)
    have hb' := hb
    rw [Multiset.map_add, Multiset.sum_add] at hb
    have e1 := ih1 (fun x hx => hs x (by simp [hx])) (by linarith [nn t])
    have e2 := ih2 (fun x hx => hs x (by simp [hx])) (by linarith [nn s])
    obtain ⟨m, hm⟩ := sum_units (s + t) hs
    have ha := abs_sum_toRat (s + t)
    rw [e1, e2]
    show ofRat _ = _
    rw [← Multiset.sum_add, ← Multiset.map_add, hm]
    apply ofRat_rep
    rw [hm] at ha
    exact rep_units h1 h2 (units_lt ha hb')

/-- The same for sums of products. -/
theorem tree_dot_exact {e f : ℤ} (h1 : -1074 ≤ e + f) (h2 : e + f ≤ 971) {s : Multiset (B64 × B64)} {g : B64 × B64 → B64}
    (hg : ∀ p ∈ s, g p = p.1 * p.2 ∨ g p = p.2 * p.1) {v : B64} (h : AddTree (s.map g) v)
    (hs : ∀ p ∈ s, ∃ m n : ℤ, p = (fin (m * 2 ^ e), fin (n * 2 ^ f)))
    (hb : (s.map fun p => |toRat p.1 * toRat p.2|).sum < 2 ^ 53 * 2 ^ (e + f)) :
    v = fin (s.map fun p => toRat p.1 * toRat p.2).sum := by
  have key : ∀ p ∈ s, (∃ m : ℤ, g p = fin (m * 2 ^ (e + f))) ∧ toRat (g p) = toRat p.1 * toRat p.2 := by
    intro p hp
    obtain ⟨m, n, hp'⟩ := hs p hp
    have h3 : |toRat p.1 * toRat p.2| ≤ (s.map fun p => |toRat p.1 * toRat p.2|).sum :=
      Multiset.single_le_sum (by simp only [Multiset.mem_map]; rintro _ ⟨x, _, rfl⟩; exact abs_nonneg _) _
        (Multiset.mem_map.2 ⟨p, hp, rfl⟩)
    have e1 : (m : ℚ) * 2 ^ e * (n * 2 ^ f) = ((m * n : ℤ) : ℚ) * 2 ^ (e + f) := by
      rw [zpow_add₀ (by norm_num), Int.cast_mul]; ring
    have e2 : toRat p.1 * toRat p.2 = ((m * n : ℤ) : ℚ) * 2 ^ (e + f) := by rw [hp']; exact e1
    rw [e2] at h3
    have e3 : g p = fin (((m * n : ℤ) : ℚ) * 2 ^ (e + f)) := by
      rcases hg p hp with h4 | h4
      · rw [h4, hp']
        show ofRat _ = _
        rw [e1]
        exact ofRat_rep (rep_units h1 h2 (units_lt h3 hb))
      · rw [h4, hp']
        show ofRat _ = _
        rw [mul_comm, e1]
        exact ofRat_rep (rep_units h1 h2 (units_lt h3 hb))
    exact ⟨⟨_, e3⟩, by rw [e3, e2]; rfl⟩
  have := tree_exact h1 h2 h (by
    intro x hx
    obtain ⟨p, hp, rfl⟩ := Multiset.mem_map.1 hx
    exact (key p hp).1) (by
    rw [Multiset.map_map]
    refine lt_of_eq_of_lt (congrArg _ (Multiset.map_congr rfl fun p hp => ?_)) hb
    simp only [Function.comp]
    rw [(key p hp).2])
  rw [this, Multiset.map_map]
  congr 2
  exact Multiset.map_congr rfl fun p hp => (key p hp).2

/-- The same for fused accumulation. -/
theorem fma_exact {e f : ℤ} (h1 : -1074 ≤ e + f) (h2 : e + f ≤ 971) (l : List (B64 × B64))
    (hs : ∀ p ∈ l, ∃ m n : ℤ, p = (fin (m * 2 ^ e), fin (n * 2 ^ f)))
    (hb : (l.map fun p => |toRat p.1 * toRat p.2|).sum < 2 ^ 53 * 2 ^ (e + f)) :
    l.foldl (fun acc p => mulAdd p.1 p.2 acc) 0 = fin (l.map fun p => toRat p.1 * toRat p.2).sum := by
  have units : ∀ l : List (B64 × B64), (∀ p ∈ l, ∃ m n : ℤ, p = (fin (m * 2 ^ e), fin (n * 2 ^ f))) →
      (∃ m : ℤ, (l.map fun p => toRat p.1 * toRat p.2).sum = m * 2 ^ (e + f)) ∧
      |(l.map fun p => toRat p.1 * toRat p.2).sum| ≤ (l.map fun p => |toRat p.1 * toRat p.2|).sum := by
    intro l hl
    induction l with
    | nil => exact ⟨⟨0, by simp⟩, by simp⟩
    | cons p l ih =>
      obtain ⟨⟨k, hk⟩, ha⟩ := ih fun q hq => hl q (by simp [hq])
      obtain ⟨m, n, hp⟩ := hl p (by simp)
      simp only [List.map_cons, List.sum_cons]
      refine ⟨⟨m * n + k, ?_⟩, le_trans (abs_add_le _ _) (by linarith)⟩
      rw [hk, hp]
      show (m : ℚ) * 2 ^ e * (n * 2 ^ f) + _ = _
      rw [zpow_add₀ (by norm_num)]
      push_cast
      ring
  induction l using List.reverseRecOn with
  | nil => rfl
  | append_singleton l p ih =>
    obtain ⟨⟨k, hk⟩, ha⟩ := units _ hs
    have h3 := units_lt (hk ▸ ha) hb
    rw [List.map_append, List.sum_append] at hb
    rw [List.foldl_append, List.foldl_cons, List.foldl_nil, ih (fun q hq => hs q (by simp [hq])) (by
      have := abs_nonneg (toRat p.1 * toRat p.2)
      simp only [List.map_cons, List.map_nil, List.sum_cons, List.sum_nil] at hb
      linarith)]
    obtain ⟨m, n, hp⟩ := hs p (by simp)
    rw [hk]
    rw [List.map_append, List.sum_append, List.map_cons, List.map_nil, List.sum_cons, List.sum_nil, add_zero, hp] at hk
    rw [hp]
    show ofRat _ = _
    change _ + (m : ℚ) * 2 ^ e * (n * 2 ^ f) = _ at hk
    rw [add_comm, hk]
    exact ofRat_rep (rep_units h1 h2 h3)

end B64
end Lacuna
