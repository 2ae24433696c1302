import Verif.Lemmas.PtrSpmmUb
import Verif.Props.Spmm
import Verif.Props.PtrConvert
import Verif.Props.PtrDiff
import Verif.Props.PtrScatter
/-
C66: sparse times dense matrix products at pointer level.
-/
namespace Lacuna
variable {V : Type}

theorem k_fits {n k : Nat} (hn : 0 < n) (hs : 8 * ((n * k : Nat) : Int) ≤ i64Max) : k + 128 ≤ usizeMax := by
  have : 1 * k ≤ n * k := Nat.mul_le_mul_right k hn
  unfold i64Max at hs; unfold usizeMax; omega

theorem bytes_usize {n : Nat} (hs : 8 * (n : Int) ≤ i64Max) : n ≤ usizeMax := by
  unfold i64Max at hs; unfold usizeMax; omega

section
variable [Zero V] [Add V] [Mul V] {dbg : Bool} {F : Nat}

/-! ### In-range indices: exactly the list-level results -/

/-- C66, CSR: the pointer-level product of a matrix with the documented invariants (columns in
any order, repeated or not) leaves no buffer, does not panic, and returns the list-level
result. -/
theorem spmm_csr_ptr {a : Csr V} (hw : a.WFU) (hm : a.comp.Machine) {b : List V} {k : Nat} (hk : 0 < k)
    (hb : b.length = a.ncols * k) (hbs : 8 * (b.length : Int) ≤ i64Max)
    (hs : 8 * ((a.nrows * k : Nat) : Int) ≤ i64Max) (hF : 128 < F) (out : Except Fault (List V)) :
    SpmmCsrPtr dbg F a b k out ↔ ∃ y, spmmCsr a b k = some y ∧ out = .ok y := by
  have hbu := bytes_usize hbs
  have hnu := bytes_usize hs
  have hrow : ∀ c ∈ (List.replicate a.nrows (List.replicate k (0 : V))).zipIdx,
      ∃ y, spmmRowP dbg F a.comp b k c = .ok y ∧ spmmRow b k (a.comp.row c.2) c.1 = some y := by
    rintro ⟨yi, i⟩ hci
    have hyi : yi = List.replicate k 0 := List.eq_of_mem_replicate (List.fst_mem_of_mem_zipIdx hci)
    have hi : i < a.nrows := by
      have := List.snd_lt_of_mem_zipIdx hci
      simpa using this
    subst hyi
    obtain ⟨y, e1, e2, _⟩ := spmmRowP_eq (dbg := dbg) (F := F) (n := a.ncols) (Comp.WFU.ptrOk hw) (i := i) hi hb hbu
      (fun e he => ⟨fun _ => (hw.row_bounds i e he).1, by
        have h1 := hw.row_bounds i e he
        have h2 : e.1 < a.ncols := h1.2
        rw [i64ToUsize_of_nonneg h1.1 (hw.row_i64 i e he)]
        omega⟩) hm (yi := List.replicate k 0) (by simp) (k_fits (by omega) hs) hF
    exact ⟨y, e1, e2⟩
  unfold SpmmCsrPtr spmmCsr
  rw [spmmLenP_eq (by omega) hb, ok_bind, spmmZerosP_eq hs, wrapMul_eq (by omega), wrapMul_eq hnu,
    if_neg (by simpa using hb), if_neg (by omega)]
  simp only []
  rw [if_neg (by omega), chunksOf_replicate _ _ hk]
  let g : List V × Nat → List V := fun c => (spmmRow b k (a.comp.row c.2) c.1).getD []
  have h1 : ∀ c ∈ (List.replicate a.nrows (List.replicate k (0 : V))).zipIdx,
      spmmRowP dbg F a.comp b k c = .ok (g c) := by
    intro c hc
    obtain ⟨y, e1, e2⟩ := hrow c hc
    rw [e1]; simp only [g, e2, Option.getD_some]
  rw [mapM_option_map (g := g) (fun c hc => by
    obtain ⟨y, e1, e2⟩ := hrow c hc
    simp only [g, e2, Option.getD_some])]
  constructor
  · rintro ⟨oe, h2, rfl⟩
    rw [(parEach_ok h1 oe).1 h2]
    exact ⟨_, rfl, rfl⟩
  · rintro ⟨y, hy, rfl⟩
    cases hy
    exact ⟨_, (parEach_ok h1 _).2 rfl, rfl⟩

/-- C66, CSC: likewise; the tiles, which run in parallel on the same output, do not race. -/
theorem spmm_csc_ptr {a : Csc V} (hw : a.WFU) (hm : a.comp.Machine) {b : List V} {k : Nat}
    (hb : b.length = a.ncols * k) (hbs : 8 * (b.length : Int) ≤ i64Max)
    (hs : 8 * ((a.nrows * k : Nat) : Int) ≤ i64Max) (hF : 128 < F) (out : Except Fault (List V)) :
    SpmmCscPtr dbg F a b k out ↔ ∃ y, SpmmCscRun a b k y ∧ out = .ok y := by
  have hbu := bytes_usize hbs
  have hnu := bytes_usize hs
  have hin : ∀ j, ∀ e ∈ a.comp.row j, 0 ≤ e.1 ∧ i64ToUsize e.1 < a.nrows := by
    intro j e he
    have h1 := hw.row_bounds j e he
    have h2 : e.1 < a.nrows := h1.2
    rw [i64ToUsize_of_nonneg h1.1 (hw.row_i64 j e he)]
    exact ⟨h1.1, by omega⟩
  unfold SpmmCscPtr SpmmCscRun
  rw [spmmLenP_eq (by omega) hb, ok_bind, spmmZerosP_eq hs, wrapMul_eq (by omega), wrapMul_eq hnu]
  simp only []
  split
  · constructor
    · rintro rfl; exact ⟨_, ⟨hb, rfl⟩, rfl⟩
    · rintro ⟨y, ⟨_, rfl⟩, rfl⟩; rfl
  · rename_i h0
    have := tilesPtr_iff (n := a.ncols) (N := a.nrows) hb (es := cscEs a.comp) (by
      intro e he
      obtain ⟨j, hj, he⟩ := List.mem_flatMap.1 he
      obtain ⟨e', he', rfl⟩ := List.mem_map.1 he
      exact ⟨List.mem_range.1 hj, (hin j e' he').2⟩)
      (task := cscTileP dbg F (a.nrows * k) a.comp b k)
      (fun t ht => cscTileP_eq (Comp.WFU.ptrOk hw) hm hb hbu hnu
        (fun j _ e he => ⟨fun _ => (hin j e he).1, (hin j e he).2⟩) ht (k_fits (by omega) hs) hF) out
    rw [List.length_replicate, this]
    constructor
    · rintro ⟨y, h1, h2⟩; exact ⟨y, ⟨hb, h1⟩, h2⟩
    · rintro ⟨y, ⟨_, h1⟩, h2⟩; exact ⟨y, h1, h2⟩

/-- C66, COO: likewise. -/
theorem spmm_coo_ptr {a : Coo V} (hw : a.WF) (hi : a.I64) {b : List V} {k : Nat}
    (hb : b.length = a.ncols * k) (hbs : 8 * (b.length : Int) ≤ i64Max)
    (hs : 8 * ((a.nrows * k : Nat) : Int) ≤ i64Max) (hF : 128 < F) (out : Except Fault (List V)) :
    SpmmCooPtr dbg F a b k out ↔ ∃ y, SpmmCooRun a b k y ∧ out = .ok y := by
  have hbu := bytes_usize hbs
  have hnu := bytes_usize hs
  have hin : ∀ e ∈ a.triples, 0 ≤ e.1.1 ∧ 0 ≤ e.1.2 ∧ i64ToUsize e.1.1 < a.nrows ∧ i64ToUsize e.1.2 < a.ncols := by
    intro e he
    have h1 := hw.triple_bounds e he
    rw [i64ToUsize_of_nonneg h1.1.1 (hi.triple e he).1, i64ToUsize_of_nonneg h1.2.1 (hi.triple e he).2]
    exact ⟨h1.1.1, h1.2.1, by omega, by omega⟩
  unfold SpmmCooPtr SpmmCooRun
  rw [spmmLenP_eq (by omega) hb, ok_bind, spmmZerosP_eq hs, wrapMul_eq (by omega), wrapMul_eq hnu]
  simp only []
  split
  · constructor
    · rintro rfl; exact ⟨_, ⟨hb, rfl⟩, rfl⟩
    · rintro ⟨y, ⟨_, rfl⟩, rfl⟩; rfl
  · rename_i h0
    have := tilesPtr_iff (n := a.ncols) (N := a.nrows) hb (es := cooEs a) (by
      intro e he
      obtain ⟨e', he', rfl⟩ := List.mem_map.1 he
      exact ⟨(hin e' he').2.2.2, (hin e' he').2.2.1⟩)
      (task := cooTileP dbg F (a.nrows * k) a b k)
      (fun t ht => cooTileP_eq (by rw [hw.row_length]) (by rw [hw.col_length]) hb hbu hnu
        (fun e he => ⟨fun _ => (hin e he).1, fun _ => (hin e he).2.1, (hin e he).2.2.1, (hin e he).2.2.2⟩) ht
        (k_fits (by omega) hs) hF) out
    rw [List.length_replicate, this]
    constructor
    · rintro ⟨y, h1, h2⟩; exact ⟨y, ⟨hb, h1⟩, h2⟩
    · rintro ⟨y, ⟨_, h1⟩, h2⟩; exact ⟨y, h1, h2⟩

/-- C66, `spmm_auto_f64_i64`: whichever kernel is chosen. -/
theorem spmm_auto_ptr {a : Csr V} (hw : a.WFU) (hm : a.comp.Machine) (hl : 8 * ((a.ncols : Int) + 1) ≤ i64Max)
    {b : List V} {k : Nat} (hb : b.length = a.ncols * k) (hbs : 8 * (b.length : Int) ≤ i64Max)
    (hs : 8 * ((a.nrows * k : Nat) : Int) ≤ i64Max) (hF : 128 < F) (out : Except Fault (List V)) :
    SpmmAutoPtr dbg F a b k out ↔ ∃ y, SpmmAutoRun a b k y ∧ out = .ok y := by
  have hbu := bytes_usize hbs
  unfold SpmmAutoPtr SpmmAutoRun
  rw [spmmLenP_eq (by omega) hb, spmmZerosP_eq hs, wrapMul_eq (by omega), wrapMul_eq (bytes_usize hs)]
  simp only []
  split
  · constructor
    · rintro rfl; exact ⟨_, ⟨hb, rfl⟩, rfl⟩
    · rintro ⟨y, ⟨_, rfl⟩, rfl⟩; rfl
  · rename_i h0
    split
    · have key : ∀ c, CsrToCscRun a c → ∀ out, SpmmCscPtr dbg F c b k out ↔ ∃ y, SpmmCscRun c b k y ∧ out = .ok y := by
        intro c hc out
        obtain ⟨g1, g2, g3, g4, -, -⟩ := csr_to_csc_correct hw (Comp.WFU.fits_of_machine hw hm) hc
        have hmc : c.comp.Machine := Comp.WFU.machine g4 (by
          show 8 * ((c.ncols : Int) + 1) ≤ i64Max
          rw [g2]; exact hl) (by
          show 8 * (c.data.length : Int) ≤ i64Max
          rw [g3]; exact hm.data)
        exact spmm_csc_ptr g4 hmc (by rw [g2]; exact hb) hbs (by rw [g1]; exact hs) hF out
      constructor
      · rintro ⟨oc, h1, h2⟩
        obtain ⟨c, hc, rfl⟩ := (csr_to_csc_ptr hw hm hl dbg oc).1 h1
        obtain ⟨y, h3, h4⟩ := (key c hc out).1 h2
        exact ⟨y, ⟨hb, c, hc, h3⟩, h4⟩
      · rintro ⟨y, ⟨_, c, hc, h3⟩, rfl⟩
        exact ⟨.ok c, (csr_to_csc_ptr hw hm hl dbg _).2 ⟨c, hc, rfl⟩, (key c hc _).2 ⟨y, h3, rfl⟩⟩
    · rw [spmm_csr_ptr hw hm (by omega) hb hbs hs hF]
      constructor
      · rintro ⟨y, h1, h2⟩; exact ⟨y, ⟨hb, h1⟩, h2⟩
      · rintro ⟨y, ⟨_, h1⟩, h2⟩; exact ⟨y, h1, h2⟩

/-! ### Wrong size of the dense matrix -/

omit [Zero V] [Add V] [Mul V] in
theorem spmmLenP_panic {n k l : Nat} (h : n * k ≤ usizeMax) (hb : l ≠ n * k) :
    spmmLenP dbg n k l = .error .panic := by
  unfold spmmLenP
  rw [mulUsize_eq h, ok_bind, if_neg hb]

/-- C66: a dense matrix of the wrong size makes every product panic before any access. -/
theorem spmm_ptr_rejects (b : List V) (k : Nat) (out : Except Fault (List V)) :
    (∀ a : Csr V, a.ncols * k ≤ usizeMax → b.length ≠ a.ncols * k →
      (SpmmCsrPtr dbg F a b k out ↔ out = .error .panic) ∧ (SpmmAutoPtr dbg F a b k out ↔ out = .error .panic)) ∧
    (∀ a : Csc V, a.ncols * k ≤ usizeMax → b.length ≠ a.ncols * k →
      (SpmmCscPtr dbg F a b k out ↔ out = .error .panic)) ∧
    (∀ a : Coo V, a.ncols * k ≤ usizeMax → b.length ≠ a.ncols * k →
      (SpmmCooPtr dbg F a b k out ↔ out = .error .panic)) := by
  refine ⟨fun a h hb => ⟨?_, ?_⟩, fun a h hb => ?_, fun a h hb => ?_⟩
  · unfold SpmmCsrPtr; rw [spmmLenP_panic h hb]; rfl
  · unfold SpmmAutoPtr; rw [spmmLenP_panic h hb]
  · unfold SpmmCscPtr; rw [spmmLenP_panic h hb]; rfl
  · unfold SpmmCooPtr; rw [spmmLenP_panic h hb]; rfl

/-- C66: with a dense factor without columns the CSR kernel panics (`par_chunks_mut(0)`), the others
return an empty result. -/
theorem spmm_ptr_no_columns (out : Except Fault (List V)) :
    (∀ a : Csr V, SpmmCsrPtr dbg F a [] 0 out ↔ out = .error .panic) ∧
    (∀ a : Csr V, SpmmAutoPtr dbg F a [] 0 out ↔ out = .ok []) ∧
    (∀ a : Csc V, SpmmCscPtr dbg F a [] 0 out ↔ out = .ok []) ∧
    (∀ a : Coo V, SpmmCooPtr dbg F a [] 0 out ↔ out = .ok []) := by
  have hl : ∀ n, spmmLenP dbg n 0 ([] : List V).length = .ok () := fun n => spmmLenP_eq (by simp) (by simp)
  have hz : ∀ n, spmmZerosP (V := V) dbg n 0 = .ok [] := fun n => spmmZerosP_eq (n := n) (k := 0) (by rw [Nat.mul_zero]; decide)
  refine ⟨fun a => ?_, fun a => ?_, fun a => ?_, fun a => ?_⟩
  · unfold SpmmCsrPtr; rw [hl, ok_bind, hz]; rfl
  · unfold SpmmAutoPtr; rw [hl, hz]; simp
  · unfold SpmmCscPtr; rw [hl, ok_bind, hz]; simp
  · unfold SpmmCooPtr; rw [hl, ok_bind, hz]; simp

/-! ### Arbitrary pointers -/

omit [Zero V] [Add V] [Mul V] in
theorem spmmLenP_cases {n k l : Nat} (h : n * k ≤ usizeMax) :
    spmmLenP dbg n k l = .error .panic ∨ (spmmLenP dbg n k l = .ok () ∧ l = n * k) := by
  by_cases hb : l = n * k
  · exact .inr ⟨spmmLenP_eq h hb, hb⟩
  · exact .inl (spmmLenP_panic h hb)

omit [Add V] [Mul V] in
theorem spmmZerosP_cases {n k : Nat} (h : n * k ≤ usizeMax) :
    spmmZerosP (V := V) dbg n k = .error .panic ∨
      (spmmZerosP (V := V) dbg n k = .ok (List.replicate (n * k) 0) ∧ 8 * ((n * k : Nat) : Int) ≤ i64Max) := by
  by_cases hb : 8 * ((n * k : Nat) : Int) ≤ i64Max
  · exact .inr ⟨spmmZerosP_eq hb, hb⟩
  · left
    unfold spmmZerosP
    rw [mulUsize_eq h, ok_bind]
    exact if_neg hb

/-- C66, CSR: for any pointers and lengths of the arrays, the product stays inside its buffers as
soon as the stored columns are below `ncols` and the two products of sizes do not wrap (pointers
out of range panic: those accesses are checked). -/
theorem spmm_csr_no_ub {a : Csr V} (hj : ∀ j ∈ a.indices, asUsize j < a.ncols) {b : List V} {k : Nat}
    (hm : a.ncols * k ≤ usizeMax) (hn : a.nrows * k ≤ usizeMax) (hF : 128 < F) {out : Except Fault (List V)}
    (h : SpmmCsrPtr dbg F a b k out) : out ≠ .error .ub := by
  unfold SpmmCsrPtr at h
  rcases spmmLenP_cases (dbg := dbg) (l := b.length) hm with e | ⟨e, hb⟩
  · rw [e] at h; subst h; intro hc; cases hc
  · rcases spmmZerosP_cases (V := V) (dbg := dbg) hn with e' | ⟨e', hs⟩
    · rw [e, ok_bind, e'] at h; subst h; intro hc; cases hc
    · rw [e, ok_bind, e'] at h
      simp only [] at h
      split at h
      · subst h; intro hc; cases hc
      · rename_i hk
        rw [chunksOf_replicate _ _ (by omega)] at h
        obtain ⟨oe, h1, rfl⟩ := h
        cases oe with
        | ok l => intro hc; cases hc
        | error x =>
          obtain ⟨⟨yi, i⟩, hc, hx⟩ := h1
          have hyi : yi = List.replicate k 0 := List.eq_of_mem_replicate (List.fst_mem_of_mem_zipIdx hc)
          have hi : i < a.nrows := by simpa using List.snd_lt_of_mem_zipIdx hc
          intro hu
          cases hu
          exact (spmmRowP_safe (dbg := dbg) (F := F) (a := a.comp) hb (by omega) hj (i := i) (yi := yi) (by rw [hyi]; simp)
            (k_fits (by omega) hs) hF).1 hx

/-- C66, CSC: likewise for stored rows below `nrows`. -/
theorem spmm_csc_no_ub {a : Csc V} (hj : ∀ i ∈ a.indices, asUsize i < a.nrows) {b : List V} {k : Nat}
    (hm : a.ncols * k ≤ usizeMax) (hn : a.nrows * k ≤ usizeMax) (hF : 128 < F) {out : Except Fault (List V)}
    (h : SpmmCscPtr dbg F a b k out) : out ≠ .error .ub := by
  unfold SpmmCscPtr at h
  rcases spmmLenP_cases (dbg := dbg) (l := b.length) hm with e | ⟨e, hb⟩
  · rw [e] at h; subst h; intro hc; cases hc
  · rcases spmmZerosP_cases (V := V) (dbg := dbg) hn with e' | ⟨e', hs⟩
    · rw [e, ok_bind, e'] at h; subst h; intro hc; cases hc
    · rw [e, ok_bind, e'] at h
      simp only [] at h
      split at h
      · subst h; intro hc; cases hc
      · rename_i h0
        rw [List.length_replicate] at h
        exact tilesPtr_safe (fun t ht => cscTileP_safe (a := a.comp) hb (by omega) hn hj ht (k_fits (by omega) hs) hF) h

/-- C66, COO: likewise for stored rows below `nrows` and columns below `ncols`. -/
theorem spmm_coo_no_ub {a : Coo V} (hi : ∀ i ∈ a.row, asUsize i < a.nrows) (hj : ∀ j ∈ a.col, asUsize j < a.ncols)
    {b : List V} {k : Nat} (hm : a.ncols * k ≤ usizeMax) (hn : a.nrows * k ≤ usizeMax) (hF : 128 < F)
    {out : Except Fault (List V)} (h : SpmmCooPtr dbg F a b k out) : out ≠ .error .ub := by
  unfold SpmmCooPtr at h
  rcases spmmLenP_cases (dbg := dbg) (l := b.length) hm with e | ⟨e, hb⟩
  · rw [e] at h; subst h; intro hc; cases hc
  · rcases spmmZerosP_cases (V := V) (dbg := dbg) hn with e' | ⟨e', hs⟩
    · rw [e, ok_bind, e'] at h; subst h; intro hc; cases hc
    · rw [e, ok_bind, e'] at h
      simp only [] at h
      split at h
      · subst h; intro hc; cases hc
      · rename_i h0
        rw [List.length_replicate] at h
        exact tilesPtr_safe (fun t ht => cooTileP_safe hb (by omega) hn hi hj ht (k_fits (by omega) hs) hF) h

/-! ### Out-of-range indices -/

/-- C66, CSR: a stored column whose row of `b` starts behind the end of `b` is read without check.
`e.1` may be any such column (for `dbg = false` also a negative one). -/
theorem spmm_csr_ub {a : Csr V} (h : a.comp.PtrOk) (hm : a.comp.Machine) {b : List V} {k : Nat} (hk : 0 < k)
    (hb : b.length = a.ncols * k) (hbs : 8 * (b.length : Int) ≤ i64Max)
    (hs : 8 * ((a.nrows * k : Nat) : Int) ≤ i64Max) (hF : 128 < F) {i : Nat} (hi : i < a.nrows)
    (hr : dbg = true → ∀ e ∈ a.comp.row i, 0 ≤ e.1 ∧ i64ToUsize e.1 * k + k ≤ usizeMax)
    (hbad : ∃ e ∈ a.comp.row i, b.length ≤ i64ToUsize e.1 * k % 2 ^ 64) :
    SpmmCsrPtr dbg F a b k (.error .ub) := by
  have hbu := bytes_usize hbs
  unfold SpmmCsrPtr
  rw [spmmLenP_eq (by omega) hb, ok_bind, spmmZerosP_eq hs]
  simp only []
  rw [if_neg (by omega), chunksOf_replicate _ _ hk]
  refine ⟨.error .ub, ⟨(List.replicate k 0, i), ?_, ?_⟩, rfl⟩
  · rw [List.mem_zipIdx_iff_getElem?]
    simp [hi]
  · exact spmmRowP_ub h hi hr hm (by simp) hk (k_fits (by omega) hs) hF hbad

/-- C66, CSC: an entry whose row of the output starts behind its end is written without check.  The
output has `nrows * k % 2^64` elements in a release build. -/
theorem spmm_csc_ub {a : Csc V} (h : a.comp.PtrOk) (hm : a.comp.Machine) {b z : List V} {k : Nat} (hk : 0 < k)
    (hn : 0 < a.nrows) (hb : b.length = a.ncols * k) (hbs : 8 * (b.length : Int) ≤ i64Max)
    (hz : spmmZerosP dbg a.nrows k = .ok z) (hku : k + 128 ≤ usizeMax) (hF : 128 < F)
    (hr : dbg = true → ∀ j < a.ncols, ∀ e ∈ a.comp.row j, 0 ≤ e.1 ∧ i64ToUsize e.1 * k + k ≤ usizeMax)
    (hbad : ∃ j < a.ncols, ∃ e ∈ a.comp.row j, z.length ≤ i64ToUsize e.1 * k % 2 ^ 64) :
    SpmmCscPtr dbg F a b k (.error .ub) := by
  have hbu := bytes_usize hbs
  unfold SpmmCscPtr
  rw [spmmLenP_eq (by omega) hb, ok_bind, hz]
  simp only []
  have hc : 0 < a.ncols := by obtain ⟨j, hj, _⟩ := hbad; omega
  rw [if_neg (by omega)]
  exact tilesPtr_ub hk (cscTileP_ub h hm hb hbu hr hk hku hF hbad)

/-- C66, COO: likewise, for the row of the output or the row of `b`. -/
theorem spmm_coo_ub {a : Coo V} (hrow : a.data.length ≤ a.row.length) (hcol : a.data.length ≤ a.col.length)
    {b z : List V} {k : Nat} (hk : 0 < k) (hn : 0 < a.nrows) (hb : b.length = a.ncols * k)
    (hbs : 8 * (b.length : Int) ≤ i64Max) (hz : spmmZerosP dbg a.nrows k = .ok z) (hku : k + 128 ≤ usizeMax)
    (hF : 128 < F)
    (hr : dbg = true → ∀ e ∈ a.triples, 0 ≤ e.1.1 ∧ 0 ≤ e.1.2 ∧ i64ToUsize e.1.1 * k + k ≤ usizeMax ∧
      i64ToUsize e.1.2 * k + k ≤ usizeMax)
    (hbad : ∃ e ∈ a.triples, b.length ≤ i64ToUsize e.1.2 * k % 2 ^ 64 ∨ z.length ≤ i64ToUsize e.1.1 * k % 2 ^ 64) :
    SpmmCooPtr dbg F a b k (.error .ub) := by
  have hbu := bytes_usize hbs
  unfold SpmmCooPtr
  rw [spmmLenP_eq (by omega) hb, ok_bind, hz]
  simp only []
  have hlen : a.triples.length = a.data.length := by unfold Coo.triples; simp; omega
  have hd : 0 < a.data.length := by
    obtain ⟨e, he, _⟩ := hbad
    rw [← hlen]
    exact List.length_pos_of_mem he
  rw [if_neg (by omega)]
  exact tilesPtr_ub hk (cooTileP_ub hrow hcol hr hk hku hF hbad)

/-! ### Valid matrices whose result size wraps -/

omit [Add V] [Mul V] in
theorem spmmZerosP_wraps {n k : Nat} (h : usizeMax < n * k) (hs : 8 * ((n * k % 2 ^ 64 : Nat) : Int) ≤ i64Max) :
    spmmZerosP (V := V) false n k = .ok (List.replicate (n * k % 2 ^ 64) 0) ∧
      spmmZerosP (V := V) true n k = .error .panic := by
  have hn : ¬ n * k ≤ usizeMax := by omega
  unfold spmmZerosP mulUsize
  simp only [if_neg hn]
  exact ⟨zeroVecP_ok hs, rfl⟩

/-- C66, CSC: in a release build the size `nrows * k` of the result wraps around; a valid matrix then
gets a short output, and an entry in a row behind its end is written outside.  A debug build panics. -/
theorem spmm_csc_size_wraps {a : Csc V} (hw : a.WFU) (hm : a.comp.Machine) {b : List V} {k : Nat}
    (hb : b.length = a.ncols * k) (hbs : 8 * (b.length : Int) ≤ i64Max) (hn : usizeMax < a.nrows * k)
    (hs : 8 * ((a.nrows * k % 2 ^ 64 : Nat) : Int) ≤ i64Max) (hku : k + 128 ≤ usizeMax) (hF : 128 < F)
    (hbad : ∃ j < a.ncols, ∃ e ∈ a.comp.row j, a.nrows * k % 2 ^ 64 ≤ e.1.toNat * k % 2 ^ 64) :
    SpmmCscPtr false F a b k (.error .ub) ∧ ∀ out, SpmmCscPtr true F a b k out → out = .error .panic := by
  have h0 : 0 < a.nrows ∧ 0 < k := by
    have : 0 < a.nrows * k := by omega
    exact ⟨Nat.pos_of_mul_pos_right this, Nat.pos_of_mul_pos_left this⟩
  refine ⟨spmm_csc_ub (Comp.WFU.ptrOk hw) hm h0.2 h0.1 hb hbs (spmmZerosP_wraps hn hs).1 hku hF
    (by intro hc; cases hc) ?_, fun out h => ?_⟩
  · obtain ⟨j, hj, e, he, hle⟩ := hbad
    refine ⟨j, hj, e, he, ?_⟩
    rw [List.length_replicate, i64ToUsize_of_nonneg (hw.row_bounds j e he).1 (hw.row_i64 j e he)]
    exact hle
  · unfold SpmmCscPtr at h
    have := bytes_usize hbs
    rw [spmmLenP_eq (by omega) hb, ok_bind, (spmmZerosP_wraps hn hs).2] at h
    exact h

/-- C66, COO: likewise. -/
theorem spmm_coo_size_wraps {a : Coo V} (hw : a.WF) (hi : a.I64) {b : List V} {k : Nat}
    (hb : b.length = a.ncols * k) (hbs : 8 * (b.length : Int) ≤ i64Max) (hn : usizeMax < a.nrows * k)
    (hs : 8 * ((a.nrows * k % 2 ^ 64 : Nat) : Int) ≤ i64Max) (hku : k + 128 ≤ usizeMax) (hF : 128 < F)
    (hbad : ∃ e ∈ a.triples, a.nrows * k % 2 ^ 64 ≤ e.1.1.toNat * k % 2 ^ 64) :
    SpmmCooPtr false F a b k (.error .ub) ∧ ∀ out, SpmmCooPtr true F a b k out → out = .error .panic := by
  have h0 : 0 < a.nrows ∧ 0 < k := by
    have : 0 < a.nrows * k := by omega
    exact ⟨Nat.pos_of_mul_pos_right this, Nat.pos_of_mul_pos_left this⟩
  refine ⟨spmm_coo_ub (by rw [hw.row_length]) (by rw [hw.col_length]) h0.2 h0.1 hb hbs (spmmZerosP_wraps hn hs).1 hku hF
    (by intro hc; cases hc) ?_, fun out h => ?_⟩
  · obtain ⟨e, he, hle⟩ := hbad
    refine ⟨e, he, .inr ?_⟩
    rw [List.length_replicate, i64ToUsize_of_nonneg (hw.triple_bounds e he).1.1 (hi.triple e he).1]
    exact hle
  · unfold SpmmCooPtr at h
    have := bytes_usize hbs
    rw [spmmLenP_eq (by omega) hb, ok_bind, (spmmZerosP_wraps hn hs).2] at h
    exact h

end

/-! ### End to end -/

section
variable [CommSemiring V] {dbg : Bool} {F : Nat}

/-- C66, CSR, end to end: the only outcome is the matrix product. -/
theorem spmm_csr_ptr_correct {a : Csr V} (hw : a.WFU) (hm : a.comp.Machine) {b : List V} {k : Nat} (hk : 0 < k)
    (hb : b.length = a.ncols * k) (hbs : 8 * (b.length : Int) ≤ i64Max)
    (hs : 8 * ((a.nrows * k : Nat) : Int) ≤ i64Max) (hF : 128 < F) :
    Returns (SpmmCsrPtr dbg F a b k) fun y => IsMatProd a.nrows a.ncols k a.val b y := by
  have hbu := bytes_usize hbs
  obtain ⟨y, h1, h2⟩ := spmm_csr_correct hw b k hk hb (by omega) (bytes_usize hs)
  refine ⟨⟨y, (spmm_csr_ptr hw hm hk hb hbs hs hF _).2 ⟨y, h1, rfl⟩⟩, fun out ho => ?_⟩
  obtain ⟨y', e1, e2⟩ := (spmm_csr_ptr hw hm hk hb hbs hs hF out).1 ho
  rw [h1] at e1
  cases e1
  exact ⟨y, e2, h2⟩

/-- C66, CSC, end to end: every interleaving of the tiles returns the matrix product. -/
theorem spmm_csc_ptr_correct {a : Csc V} (hw : a.WFU) (hm : a.comp.Machine) {b : List V} {k : Nat}
    (hb : b.length = a.ncols * k) (hbs : 8 * (b.length : Int) ≤ i64Max)
    (hs : 8 * ((a.nrows * k : Nat) : Int) ≤ i64Max) (hF : 128 < F) :
    Returns (SpmmCscPtr dbg F a b k) fun y => IsMatProd a.nrows a.ncols k a.val b y := by
  have hbu := bytes_usize hbs
  obtain ⟨⟨y, h1⟩, h2⟩ := spmm_csc_correct hw b k hb (by omega) (bytes_usize hs)
  refine ⟨⟨y, (spmm_csc_ptr hw hm hb hbs hs hF _).2 ⟨y, h1, rfl⟩⟩, fun out ho => ?_⟩
  obtain ⟨y', e1, e2⟩ := (spmm_csc_ptr hw hm hb hbs hs hF out).1 ho
  exact ⟨y', e2, h2 y' e1⟩

/-- C66, COO, end to end. -/
theorem spmm_coo_ptr_correct {a : Coo V} (hw : a.WF) (hi : a.I64) {b : List V} {k : Nat}
    (hb : b.length = a.ncols * k) (hbs : 8 * (b.length : Int) ≤ i64Max)
    (hs : 8 * ((a.nrows * k : Nat) : Int) ≤ i64Max) (hF : 128 < F) :
    Returns (SpmmCooPtr dbg F a b k) fun y => IsMatProd a.nrows a.ncols k a.val b y := by
  have hbu := bytes_usize hbs
  obtain ⟨⟨y, h1⟩, h2⟩ := spmm_coo_correct hw hi b k hb (by omega) (bytes_usize hs)
  refine ⟨⟨y, (spmm_coo_ptr hw hi hb hbs hs hF _).2 ⟨y, h1, rfl⟩⟩, fun out ho => ?_⟩
  obtain ⟨y', e1, e2⟩ := (spmm_coo_ptr hw hi hb hbs hs hF out).1 ho
  exact ⟨y', e2, h2 y' e1⟩

/-- C66, `spmm_auto_f64_i64`, end to end. -/
theorem spmm_auto_ptr_correct {a : Csr V} (hw : a.WFU) (hm : a.comp.Machine) (hl : 8 * ((a.ncols : Int) + 1) ≤ i64Max)
    {b : List V} {k : Nat} (hb : b.length = a.ncols * k) (hbs : 8 * (b.length : Int) ≤ i64Max)
    (hs : 8 * ((a.nrows * k : Nat) : Int) ≤ i64Max) (hF : 128 < F) :
    Returns (SpmmAutoPtr dbg F a b k) fun y => IsMatProd a.nrows a.ncols k a.val b y := by
  have hbu := bytes_usize hbs
  obtain ⟨⟨y, h1⟩, h2⟩ := spmm_auto_correct hw (Comp.WFU.fits_of_machine hw hm) b k hb (by omega) (bytes_usize hs)
  refine ⟨⟨y, (spmm_auto_ptr hw hm hl hb hbs hs hF _).2 ⟨y, h1, rfl⟩⟩, fun out ho => ?_⟩
  obtain ⟨y', e1, e2⟩ := (spmm_auto_ptr hw hm hl hb hbs hs hF out).1 ho
  exact ⟨y', e2, h2 y' e1⟩

end

/-! ### Examples -/

example : Returns (SpmmCsrPtr (V := Int) true 1000 exA [1, 0, 0, 1, 2, 2] 2) fun y =>
    IsMatProd exA.nrows exA.ncols 2 exA.val [1, 0, 0, 1, 2, 2] y :=
  spmm_csr_ptr_correct exA_wfu exA_machine (by decide) (by decide) (by decide) (by decide) (by decide)

example : Returns (SpmmAutoPtr (V := Int) false 1000 exA (List.replicate (3 * 200) 7) 200) fun y =>
    IsMatProd exA.nrows exA.ncols 200 exA.val (List.replicate (3 * 200) 7) y :=
  spmm_auto_ptr_correct exA_wfu exA_machine (by decide) (by rw [List.length_replicate]; rfl)
    (by rw [List.length_replicate]; decide) (by decide) (by decide)

/-- A CSC matrix with unsorted and repeated rows. -/
def exCscU : Csc Int := ⟨3, 2, [0, 3, 4], [2, 0, 2, 1], [5, 6, 7, 8]⟩

theorem exCscU_wfu : exCscU.WFU :=
  ⟨rfl, rfl, rfl, rfl, by decide, by decide, by unfold i64Max; decide⟩
theorem exCscU_machine : exCscU.comp.Machine :=
  ⟨by unfold i64Max; decide, by unfold i64Max; decide, by unfold i64Max; decide, by unfold i64Max; decide⟩

example (dbg : Bool) : Returns (SpmmCscPtr dbg 1000 exCscU [1, 2, 3, 4, 5, 6] 3) fun y =>
    IsMatProd 3 2 3 exCscU.val [1, 2, 3, 4, 5, 6] y :=
  spmm_csc_ptr_correct exCscU_wfu exCscU_machine (by decide) (by decide) (by decide) (by decide)

example (dbg : Bool) : Returns (SpmmCooPtr dbg 1000 exDup [1, 2, 3, 4, 5, 6] 3) fun y =>
    IsMatProd 3 2 3 exDup.val [1, 2, 3, 4, 5, 6] y :=
  spmm_coo_ptr_correct exDup_wf exDup_i64 (by decide) (by decide) (by decide) (by decide)

example (dbg : Bool) (out : Except Fault (List Int)) : SpmmCsrPtr dbg 1000 exA [1, 2] 2 out ↔ out = .error .panic :=
  (((spmm_ptr_rejects [1, 2] 2 out).1 exA (by decide) (by decide))).1

/-- `exStrayMm` stores column 7 of a matrix with two columns: `b` is read outside in debug and release
builds; in `exBadPtr` the pointers are wrong but the columns are fine. -/
def exStrayMm : Csr Int := ⟨1, 2, [0, 1], [7], [3]⟩
def exBadPtr : Csr Int := ⟨2, 2, [0, 9, -1], [1, 0, 1], [3]⟩

example (dbg : Bool) : SpmmCsrPtr dbg 1000 exStrayMm [1, 2] 1 (.error .ub) := by
  refine spmm_csr_ub (i := 0) ⟨by decide, by decide, by decide, by decide, ?_⟩
    ⟨by unfold i64Max; decide, by unfold i64Max; decide, by unfold i64Max; decide, by unfold i64Max; decide⟩
    (by decide) (by decide) (by decide) (by decide) (by decide) (by decide) ?_ ?_
  · decide
  · intro _; decide
  · exact ⟨(7, 3), by decide, by decide⟩

example (dbg : Bool) (out : Except Fault (List Int)) (h : SpmmCsrPtr dbg 1000 exBadPtr [1, 2] 1 out) :
    out ≠ .error .ub :=
  spmm_csr_no_ub (by decide) (by decide) (by decide) (by decide) h

example (dbg : Bool) (out : Except Fault (List Int))
    (h : SpmmCscPtr dbg 1000 ⟨2, 2, [0, 9, -1], [1, 0, 1], [3]⟩ [1, 2] 1 out) : out ≠ .error .ub :=
  spmm_csc_no_ub (by decide) (by decide) (by decide) (by decide) h

example (dbg : Bool) (out : Except Fault (List Int))
    (h : SpmmCooPtr dbg 1000 ⟨2, 2, [1], [0, 1], [3, 4, 5]⟩ [1, 2] 1 out) : out ≠ .error .ub :=
  spmm_coo_no_ub (by decide) (by decide) (by decide) (by decide) (by decide) h

/-- An entry in row 7 of a matrix with one row: the output is written outside. -/
example (dbg : Bool) : SpmmCscPtr (V := Int) dbg 1000 ⟨1, 2, [0, 1, 1], [7], [3]⟩ [1, 2] 1 (.error .ub) := by
  refine spmm_csc_ub (z := [0]) ⟨by decide, by decide, by decide, by decide, by decide⟩
    ⟨by unfold i64Max; decide, by unfold i64Max; decide, by unfold i64Max; decide, by unfold i64Max; decide⟩
    (by decide) (by decide) (by decide) (by decide) (spmmZerosP_eq (by decide)) (by decide) (by decide) ?_ ?_
  · intro _; decide
  · exact ⟨0, by decide, (7, 3), by decide, by decide⟩

example (dbg : Bool) : SpmmCooPtr (V := Int) dbg 1000 ⟨1, 2, [0], [7], [3]⟩ [1, 2] 1 (.error .ub) := by
  refine spmm_coo_ub (z := [0]) (by decide) (by decide) (by decide) (by decide) (by decide) (by decide)
    (spmmZerosP_eq (by decide)) (by decide) (by decide) ?_ ?_
  · intro _; decide
  · exact ⟨((0, 7), 3), by decide, by decide⟩

/-- A valid 2^40 × 1 matrix with one entry in row 5, times a 1 × 2^24 matrix: the release build
allocates an empty result and writes into it at offset 5 · 2^24. -/
def exTallC : Csc Int := ⟨1099511627776, 1, [0, 1], [5], [3]⟩
def exTallCoo : Coo Int := ⟨1099511627776, 1, [5], [0], [3]⟩

theorem exTallC_wfu : exTallC.WFU :=
  ⟨rfl, rfl, rfl, rfl, by decide, by decide, by unfold i64Max; decide⟩

example (b : List Int) (hb : b.length = 16777216) :
    SpmmCscPtr false 1000 exTallC b 16777216 (.error .ub) ∧
      ∀ out, SpmmCscPtr true 1000 exTallC b 16777216 out → out = .error .panic :=
  spmm_csc_size_wraps exTallC_wfu
    ⟨by unfold i64Max; decide, by unfold i64Max; decide, by unfold i64Max; decide, by unfold i64Max; decide⟩
    (by rw [hb]; decide) (by rw [hb]; decide) (by decide) (by decide) (by decide) (by decide)
    ⟨0, by decide, (5, 3), by decide, by decide⟩

example (b : List Int) (hb : b.length = 16777216) :
    SpmmCooPtr false 1000 exTallCoo b 16777216 (.error .ub) ∧
      ∀ out, SpmmCooPtr true 1000 exTallCoo b 16777216 out → out = .error .panic :=
  spmm_coo_size_wraps ⟨rfl, rfl, by decide, by decide⟩ ⟨by decide, by decide⟩
    (by rw [hb]; decide) (by rw [hb]; decide) (by decide) (by decide) (by decide) (by decide)
    ⟨((5, 0), 3), by decide, by decide⟩

end Lacuna
