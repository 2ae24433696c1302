import Verif.Lemmas.Broadcast
import Verif.Props.Nd
import Mathlib.Data.List.Dedup
import Mathlib.Algebra.Ring.Int.Defs
/-
C21: broadcasting multiplication of N-D arrays.
-/
namespace Lacuna
universe u
variable {V : Type u}

theorem padShape_length {d : Nat} {s : List Nat} (h : s.length ≤ d) : (padShape d s).length = d := by
  unfold padShape; simp; omega

theorem padShape_get (d : Nat) (s : List Nat) (k : Nat) :
    dimFromRight (padShape d s) k = dimFromRight s k := by
  unfold dimFromRight padShape
  rw [List.reverse_append, List.reverse_replicate, List.getD_eq_getElem?_getD, List.getD_eq_getElem?_getD]
  by_cases hk : k < s.length
  · rw [List.getElem?_append_left (by simpa using hk)]
  · rw [List.getElem?_append_right (by simpa using hk), List.getElem?_eq_none (l := s.reverse) (by simp; omega)]
    rw [List.getElem?_replicate]
    split <;> rfl

theorem ext_dims {l l' : List Nat} (hl : l.length = l'.length)
    (h : ∀ k, dimFromRight l k = dimFromRight l' k) : l = l' := by
  have : l.reverse = l'.reverse := by
    apply List.ext_getElem (by simpa using hl)
    intro k h1 h2
    have := h k
    unfold dimFromRight at this
    rwa [List.getD_eq_getElem?_getD, List.getD_eq_getElem?_getD, List.getElem?_eq_getElem h1,
      List.getElem?_eq_getElem h2] at this
  simpa using this

theorem compat_iff_dims {l l' : List Nat} (hl : l.length = l'.length) :
    BCompat l l' ↔ ∀ k, dimFromRight l k = dimFromRight l' k ∨ dimFromRight l k = 1 ∨ dimFromRight l' k = 1 := by
  have hd : ∀ (l : List Nat) (k : Nat), k < l.length → dimFromRight l k = l.getD (l.length - 1 - k) 1 := by
    intro l k hk
    unfold dimFromRight
    rw [List.getD_eq_getElem?_getD, List.getD_eq_getElem?_getD, List.getElem?_reverse hk]
  have hd' : ∀ (l : List Nat) (k : Nat), l.length ≤ k → dimFromRight l k = 1 := by
    intro l k hk
    unfold dimFromRight
    rw [List.getD_eq_getElem?_getD, List.getElem?_eq_none (by simpa using hk)]; rfl
  unfold BCompat
  rw [List.forall₂_iff_get]
  constructor
  · rintro ⟨-, h⟩ k
    by_cases hk : k < l.length
    · rw [hd l k hk, hd l' k (by omega), hl]
      have := h (l'.length - 1 - k) (by omega) (by omega)
      simp only [List.get_eq_getElem] at this
      rw [List.getD_eq_getElem _ _ (by omega), List.getD_eq_getElem _ _ (by omega)]
      exact this
    · exact .inl (by rw [hd' l k (by omega), hd' l' k (by omega)])
  · intro h
    refine ⟨hl, fun i h1 h2 => ?_⟩
    have := h (l.length - 1 - i)
    rw [hd l _ (by omega), hd l' _ (by omega), ← hl, show l.length - 1 - (l.length - 1 - i) = i by omega,
      List.getD_eq_getElem _ _ h1, List.getD_eq_getElem _ _ h2] at this
    exact this

theorem dims_zipWith {l l' : List Nat} (hl : l.length = l'.length) (k : Nat) :
    dimFromRight (List.zipWith max l l') k = max (dimFromRight l k) (dimFromRight l' k) := by
  unfold dimFromRight
  rw [List.reverse_zipWith hl]
  simp only [List.getD_eq_getElem?_getD]
  by_cases hk : k < l.length
  · rw [List.getElem?_eq_getElem (by simp; omega), List.getElem?_eq_getElem (by simp; omega),
      List.getElem?_eq_getElem (by simp; omega)]
    simp only [Option.getD_some, List.getElem_zipWith]
  · rw [List.getElem?_eq_none (by simp; omega), List.getElem?_eq_none (by simp; omega),
      List.getElem?_eq_none (by simp; omega)]
    rfl

/-- The declarative broadcast relation is the one the code computes on padded shapes. -/
theorem isBroadcast_iff {sa sb out : List Nat} :
    IsBroadcast sa sb out ↔
      BCompat (padShape (max sa.length sb.length) sa) (padShape (max sa.length sb.length) sb) ∧
      out = List.zipWith max (padShape (max sa.length sb.length) sa) (padShape (max sa.length sb.length) sb) := by
  have hla := padShape_length (Nat.le_max_left sa.length sb.length)
  have hlb := padShape_length (Nat.le_max_right sa.length sb.length)
  have hl := hla.trans hlb.symm
  have hga := padShape_get (max sa.length sb.length) sa
  have hgb := padShape_get (max sa.length sb.length) sb
  constructor
  · rintro ⟨h1, h2, h3⟩
    refine ⟨(compat_iff_dims hl).2 (fun k => by rw [hga, hgb]; exact h2 k), ext_dims ?_ (fun k => ?_)⟩
    · rw [List.length_zipWith, hla, hlb, h1]; simp
    · rw [h3, dims_zipWith hl, hga, hgb]
  · rintro ⟨h1, rfl⟩
    refine ⟨by rw [List.length_zipWith, hla, hlb]; simp, fun k => ?_, fun k => ?_⟩
    · have := (compat_iff_dims hl).1 h1 k
      rwa [hga, hgb] at this
    · rw [dims_zipWith hl, hga, hgb]

/-! ### Normalised entries -/

/-- Entries with their indices padded on the left. -/
def padEntries (d : Nat) (a : CooNd V) : List (List Int × V) :=
  a.entries.map fun e => (List.replicate (d - a.shape.length) 0 ++ e.1, e.2)

theorem inBounds_append {s t : List Nat} {x y : List Int} (h : InBounds s x) (h' : InBounds t y) :
    InBounds (s ++ t) (x ++ y) := by
  induction s generalizing x with
  | nil => cases h; exact h'
  | cons n s ih => cases x with
    | nil => cases h
    | cons i x =>
      rw [inBounds_cons] at h
      exact inBounds_cons.2 ⟨h.1, ih h.2⟩

theorem inBounds_replicate (n : Nat) : InBounds (List.replicate n 1) (List.replicate n 0) := by
  induction n with
  | zero => exact .nil
  | succ n ih => exact inBounds_cons.2 ⟨by omega, ih⟩

theorem padEntries_inBounds {a : CooNd V} (h : a.WF) (d : Nat) :
    ∀ e ∈ padEntries d a, InBounds (padShape d a.shape) e.1 := by
  intro e he
  obtain ⟨e', he', rfl⟩ := List.mem_map.1 he
  exact inBounds_append (inBounds_replicate _) (h.entries_inBounds e' he')

theorem padEntries_i64 {a : CooNd V} (h : a.I64) (d : Nat) :
    ∀ e ∈ padEntries d a, ∀ i ∈ e.1, i ≤ i64Max := by
  intro e he
  obtain ⟨e', he', rfl⟩ := List.mem_map.1 he
  intro i hi
  rcases List.mem_append.1 hi with hi | hi
  · rw [List.eq_of_mem_replicate hi]; decide
  · exact CooNd.WF.entries_i64 h e' he' i hi

theorem normCoords_eq {a : CooNd V} (h : a.WF) (d : Nat) :
    normCoords d a = some ((padEntries d a).map Prod.fst) := by
  unfold normCoords padEntries
  rw [List.map_map, CooNd.entries_zipIdx, List.map_map]
  have e1 : (a.data.zipIdx.map ((Prod.fst ∘ fun e : List Int × V => (List.replicate (d - a.shape.length) 0 ++ e.1, e.2)) ∘
      fun e => (a.coords e.2, e.1))) =
      (List.range a.data.length).map fun k => List.replicate (d - a.shape.length) 0 ++ a.coords k := by
    apply List.ext_getElem
    · simp
    · intro i h1 h2; simp
  rw [e1]
  apply mapM_some
  intro k hk
  rw [mapM_some (g := a.coord k) (fun i hi => h.getElem? (by simpa using hk) (by simpa using hi))]
  rfl

theorem padEntries_snd (a : CooNd V) (d : Nat) : (padEntries d a).map Prod.snd = a.data := by
  unfold padEntries
  rw [List.map_map, ← CooNd.entries_snd]
  rfl

/-- The zipped arrays of the grouping step. -/
theorem zip_keys {α β γ : Type _} (P : List (α × β)) (f : α → γ) :
    ((P.map Prod.fst).map f).zip ((P.map Prod.fst).zip (P.map Prod.snd)) = P.map fun e => (f e.1, (e.1, e.2)) := by
  induction P with
  | nil => rfl
  | cons e P ih => simpa using ih

/-- Reading a padded array at a broadcast index. -/
theorem padEntries_val [AddMonoid V] {a : CooNd V} {d : Nat} (_hd : a.shape.length ≤ d) {y : List Int}
    (hy : y.length = d) :
    (((padEntries d a).filter fun e => e.1 == bidx (padShape d a.shape) y).map Prod.snd).sum =
      a.val (bcastIndex a.shape y) := by
  have hb : bidx (padShape d a.shape) y = List.replicate (d - a.shape.length) 0 ++ bcastIndex a.shape y := by
    unfold bidx padShape bcastIndex
    rw [hy]
    have hsplit : y = y.take (d - a.shape.length) ++ y.drop (d - a.shape.length) := (List.take_append_drop _ _).symm
    conv_lhs => rw [hsplit]
    rw [List.zipWith_append (by simp; omega)]
    congr 1
    apply List.ext_getElem
    · simp; omega
    · intro i h1 h2; simp
  rw [hb]
  unfold padEntries CooNd.val
  rw [List.filter_map, List.map_map]
  have hp : ((fun e : List Int × V => e.1 == List.replicate (d - a.shape.length) 0 ++ bcastIndex a.shape y) ∘
      fun e : List Int × V => (List.replicate (d - a.shape.length) 0 ++ e.1, e.2)) =
      fun e : List Int × V => e.1 == bcastIndex a.shape y := by
    funext e
    simp only [Function.comp]
    rw [Bool.eq_iff_iff]
    simp
  rw [hp]
  rfl

theorem prod_pos_of_inBounds {s : List Nat} {x : List Int} (h : InBounds s x) : 0 < s.prod :=
  Nat.lt_of_le_of_lt (Nat.zero_le _) (rowMajor_lt h)

theorem keyOps_eq [Mul V] {ash bsh : List Nat} (hc : BCompat ash bsh)
    (hno : (List.zipWith max ash bsh).prod ≤ usizeMax) {PA PB : List (List Int × V)}
    (hA : ∀ e ∈ PA, InBounds ash e.1) (hB : ∀ e ∈ PB, InBounds bsh e.1)
    (hAi : ∀ e ∈ PA, ∀ i ∈ e.1, i ≤ i64Max) (hBi : ∀ e ∈ PB, ∀ i ∈ e.1, i ≤ i64Max) (k : Nat) :
    keyOps ash (sufProds (List.zipWith max ash bsh)) (PA.map fun e => (ikey ash bsh e.1, (e.1, e.2)))
      (PB.map fun e => (ikey ash bsh e.1, (e.1, e.2))) k = some (kprods ash bsh PA PB k) := by
  unfold keyOps kprods
  rw [List.filter_map, List.filter_map]
  have h1 : ∀ P : List (List Int × V), List.filter ((fun e : Nat × (List Int × V) => e.1 == k) ∘
      fun e : List Int × V => (ikey ash bsh e.1, (e.1, e.2))) P = P.filter fun e => ikey ash bsh e.1 == k := fun _ => rfl
  rw [h1, h1]
  rw [mapM_some (g := fun ea : Nat × (List Int × V) => (PB.filter fun e => ikey ash bsh e.1 == k).map fun eb =>
      (rowMajor (List.zipWith max ash bsh) (pickCoord ash ea.2.1 eb.1), ea.2.2 * eb.2))]
  · rw [List.map_map]; rfl
  · intro ea hea
    obtain ⟨ea', hea', rfl⟩ := List.mem_map.1 hea
    have ha := (List.mem_filter.1 hea').1
    rw [mapM_some (g := fun eb : Nat × (List Int × V) =>
      (rowMajor (List.zipWith max ash bsh) (pickCoord ash ea'.1 eb.2.1), ea'.2 * eb.2.2))]
    · rw [List.map_map]; rfl
    · intro eb heb
      obtain ⟨eb', heb', rfl⟩ := List.mem_map.1 heb
      have hb := (List.mem_filter.1 heb').1
      simp only
      rw [linLoop_eq _ _ 0 (pick_inBounds hc (hA _ ha) (hB _ hb)) (by omega)
        (pick_i64 ash (hAi _ ha) (hBi _ hb))]
      simp

theorem mapM_map_option {α : Type _} {β γ : Type u} (l : List α) (f : α → β) (g : β → Option γ) :
    l.mapM (fun x => g (f x)) = (l.map f).mapM g := by
  induction l with
  | nil => rfl
  | cons x l ih => rw [List.mapM_cons, List.map_cons, List.mapM_cons, ih]

theorem mapM_congr_option {α : Type _} {β : Type u} {l : List α} {f g : α → Option β}
    (h : ∀ x ∈ l, f x = g x) : l.mapM f = l.mapM g := by
  induction l with
  | nil => rfl
  | cons x l ih => rw [List.mapM_cons, List.mapM_cons, h x (by simp), ih (fun y hy => h y (by simp [hy]))]

/-- C21: for every hash-map iteration order, thread count and sort, the broadcast product
does not panic, has the broadcast shape, is well-formed and lexicographically sorted without
repetition, and holds at every index the product of the two operands at the indices
broadcasting reads. -/
theorem broadcast_mul_correct [NonUnitalNonAssocSemiring V] {order : List Nat → List Nat → List Nat}
    (horder : IsCommonKeys order) (nthreads : Nat) {sort : List (Nat × V) → List (Nat × V)} (hsort : IsSort sort)
    {a b : CooNd V} (ha : a.WF) (hb : b.WF) (hai : a.I64) (hbi : b.I64) {out : List Nat}
    (hout : IsBroadcast a.shape b.shape out) (hno : out.prod ≤ usizeMax) :
    ∃ r, broadcastMulNd order nthreads sort a b = some r ∧ r.shape = out ∧ r.WF ∧ r.Sorted ∧
      ∀ y, InBounds out y → r.val y = a.val (bcastIndex a.shape y) * b.val (bcastIndex b.shape y) := by
  rw [isBroadcast_iff] at hout
  obtain ⟨hc, rfl⟩ := hout
  unfold broadcastMulNd
  simp only
  have hda := Nat.le_max_left a.shape.length b.shape.length
  have hdb := Nat.le_max_right a.shape.length b.shape.length
  generalize hdd : max a.shape.length b.shape.length = d at *
  have hla := padShape_length hda
  have hlb := padShape_length hdb
  have hlo : (List.zipWith max (padShape d a.shape) (padShape d b.shape)).length = d := by
    rw [List.length_zipWith, hla, hlb]; simp
  have hrank : List.zipWith max (padShape d a.shape) (padShape d b.shape) ≠ [] := by
    intro h
    rw [h] at hlo
    have := List.length_pos_of_ne_nil ha.rank
    simp at hlo; omega
  rw [broadcastShape?_some hc]
  simp only [Option.bind_some]
  by_cases hemp : a.data = [] ∨ b.data = []
  · rw [if_pos (by simpa using hemp)]
    refine ⟨_, rfl, rfl, ?_, ?_, fun y _ => ?_⟩
    · exact CooNd.wf_of_inBounds (L := []) hrank (by simp)
    · simp [CooNd.Sorted, CooNd.entries]
    · rw [show (CooNd.val (⟨_, [], []⟩ : CooNd V) y) = 0 from rfl]
      rcases hemp with h | h
      · have : a.val (bcastIndex a.shape y) = 0 := by simp [CooNd.val, CooNd.entries_zipIdx, h]
        rw [this, zero_mul]
      · have : b.val (bcastIndex b.shape y) = 0 := by simp [CooNd.val, CooNd.entries_zipIdx, h]
        rw [this, mul_zero]
  rw [if_neg (by simpa using hemp)]
  rw [not_or] at hemp
  have hA := padEntries_inBounds ha d
  have hB := padEntries_inBounds hb d
  have hAi := padEntries_i64 hai d
  have hBi := padEntries_i64 hbi d
  have hpa : 0 < (padShape d a.shape).prod := by
    have : a.entries ≠ [] := fun h => hemp.1 (by rw [← CooNd.entries_snd, h]; rfl)
    obtain ⟨e, he⟩ := List.exists_mem_of_ne_nil _ this
    exact prod_pos_of_inBounds (hA _ (List.mem_map.2 ⟨e, he, rfl⟩))
  have hpb : 0 < (padShape d b.shape).prod := by
    have : b.entries ≠ [] := fun h => hemp.2 (by rw [← CooNd.entries_snd, h]; rfl)
    obtain ⟨e, he⟩ := List.exists_mem_of_ne_nil _ this
    exact prod_pos_of_inBounds (hB _ (List.mem_map.2 ⟨e, he, rfl⟩))
  have hvala := fun (y : List Int) (hy : y.length = d) => padEntries_val (a := a) hda hy
  have hvalb := fun (y : List Int) (hy : y.length = d) => padEntries_val (a := b) hdb hy
  have hsa := padEntries_snd a d
  have hsb := padEntries_snd b d
  rw [normCoords_eq ha, normCoords_eq hb, ← hsa, ← hsb]
  generalize padEntries d a = PA at *
  generalize padEntries d b = PB at *
  generalize padShape d a.shape = ash at *
  generalize padShape d b.shape = bsh at *
  have hop := out_pos hc hpa hpb
  have hNO : NoOverflow (List.zipWith max ash bsh) := noOverflow_of_pos hop hno
  obtain ⟨ist, i1, i2, i3⟩ := interStrides?_spec (interMask ash bsh) (List.zipWith max ash bsh) hop hno
    (by simp [interMask])
  rw [strides?_eq hNO, i1]
  simp only [Option.bind_some]
  have hkey : ∀ (P : List (List Int × V)) (sh : List Nat),
      (maskSel (interMask ash bsh) sh = maskSel (interMask ash bsh) (List.zipWith max ash bsh)) → sh.length = d →
      (∀ e ∈ P, InBounds sh e.1) → (∀ e ∈ P, ∀ i ∈ e.1, i ≤ i64Max) →
      (P.map Prod.fst).mapM (fun x => keyLoop (interMask ash bsh) x ist 0) =
        some ((P.map Prod.fst).map (ikey ash bsh)) := by
    intro P sh hsh hlen hP hPi
    apply mapM_some
    intro x hx
    obtain ⟨e, he, rfl⟩ := List.mem_map.1 hx
    have hin := inBounds_maskSel (hP e he) (interMask ash bsh)
    rw [hsh] at hin
    have hml : (interMask ash bsh).length = d := by rw [interMask, List.length_zipWith, hla, hlb]; simp
    rw [keyLoop_eq _ _ _ _ 0 (by rw [(hP e he).length, hlen, hml]) (by rw [i2, hlo, hml]) i3 hin ?_ (hPi e he)]
    · rw [Nat.zero_add]; rfl
    · have := prod_sublist_le (maskSel_sublist (interMask ash bsh) (List.zipWith max ash bsh)) hop
      omega
  rw [hkey PA ash (mask_shape hc).1 hla hA hAi, hkey PB bsh (mask_shape hc).2 hlb hB hBi]
  simp only [Option.bind_some]
  rw [zip_keys, zip_keys]
  obtain ⟨hnd, hmem⟩ := horder ((PA.map Prod.fst).map (ikey ash bsh)) ((PB.map Prod.fst).map (ikey ash bsh))
  generalize order _ _ = keys at hnd hmem ⊢
  generalize hch : max 1 (keys.length / (max nthreads 1 * 4)) = chunk
  have hcp : 0 < chunk := by omega
  -- the parts
  have hprodlt : ∀ ks : List Nat, ∀ e ∈ (ks.map (kprods ash bsh PA PB)).flatten,
      ∃ x, InBounds (List.zipWith max ash bsh) x ∧ (∀ i ∈ x, i ≤ i64Max) ∧ e.1 = rowMajor (List.zipWith max ash bsh) x := by
    intro ks e he
    obtain ⟨l, hl, he⟩ := List.mem_flatten.1 he
    obtain ⟨k, -, rfl⟩ := List.mem_map.1 hl
    obtain ⟨l', hl', he⟩ := List.mem_flatten.1 he
    obtain ⟨ea, hea, rfl⟩ := List.mem_map.1 hl'
    obtain ⟨eb, heb, rfl⟩ := List.mem_map.1 he
    have h1 := (List.mem_filter.1 hea).1
    have h2 := (List.mem_filter.1 heb).1
    exact ⟨_, pick_inBounds hc (hA _ h1) (hB _ h2), pick_i64 ash (hAi _ h1) (hBi _ h2), rfl⟩
  have hcps : ∀ ks : List Nat, chunkPairs ash (sufProds (List.zipWith max ash bsh))
      (PA.map fun e => (ikey ash bsh e.1, (e.1, e.2))) (PB.map fun e => (ikey ash bsh e.1, (e.1, e.2))) ks =
      ((HMap.withCapacity 1024 : HMap V).insertAll ((ks.map (kprods ash bsh PA PB)).flatten)).map fun m => m.pairs := by
    intro ks
    unfold chunkPairs
    rw [mapM_some (g := kprods ash bsh PA PB) (fun k _ => keyOps_eq hc hno hA hB hAi hBi k)]
    rfl
  rw [mapM_congr_option (fun ks _ => hcps ks)]
  rw [mapM_map_option (chunksOf chunk keys) (fun ks => (ks.map (kprods ash bsh PA PB)).flatten)
    (fun ops => ((HMap.withCapacity 1024 : HMap V).insertAll ops).map fun m => m.pairs)]
  have hparts : ((chunksOf chunk keys).map fun ks => (ks.map (kprods ash bsh PA PB)).flatten).flatten =
      (keys.map (kprods ash bsh PA PB)).flatten := by
    have : ∀ L : List (List Nat), (L.map fun ks => (ks.map (kprods ash bsh PA PB)).flatten).flatten =
        (L.flatten.map (kprods ash bsh PA PB)).flatten := by
      intro L
      induction L with
      | nil => rfl
      | cons l L ih => rw [List.map_cons, List.flatten_cons, ih, List.flatten_cons, List.map_append, List.flatten_append]
    rw [this, chunksOf_flatten hcp]
  have hplt : ∀ p ∈ (chunksOf chunk keys).map (fun ks => (ks.map (kprods ash bsh PA PB)).flatten),
      ∀ e ∈ p, ∃ x, InBounds (List.zipWith max ash bsh) x ∧ (∀ i ∈ x, i ≤ i64Max) ∧
        e.1 = rowMajor (List.zipWith max ash bsh) x := by
    intro p hp e he
    obtain ⟨ks, -, rfl⟩ := List.mem_map.1 hp
    exact hprodlt ks e he
  obtain ⟨ms, t1, t2, t3, t4⟩ := two_level ((chunksOf chunk keys).map fun ks => (ks.map (kprods ash bsh PA PB)).flatten)
    (by
      intro p hp e he
      obtain ⟨x, hx, -, hx'⟩ := hplt p hp e he
      have := rowMajor_lt hx
      omega) 1024
  rw [t1]
  simp only [Option.bind_some]
  rw [hparts] at t4
  have hms : ∀ e ∈ ms.flatten, ∃ x, InBounds (List.zipWith max ash bsh) x ∧ (∀ i ∈ x, i ≤ i64Max) ∧
        e.1 = rowMajor (List.zipWith max ash bsh) x := by
    intro e he
    obtain ⟨p, hp, v, hv⟩ := t2 e he
    exact hplt p hp (e.1, v) hv
  generalize ms.flatten = M at hms t4 ⊢
  clear t1 t2 t3 hcps hparts hplt
  -- lift the keys to indices
  obtain ⟨E, hE, hEb, hEi⟩ : ∃ E : List (List Int × V),
      M = E.map (fun e => (rowMajor (List.zipWith max ash bsh) e.1, e.2)) ∧
      (∀ e ∈ E, InBounds (List.zipWith max ash bsh) e.1) ∧ (∀ e ∈ E, ∀ i ∈ e.1, i ≤ i64Max) := by
    clear t4
    induction M with
    | nil => exact ⟨[], rfl, by simp, by simp⟩
    | cons e M ih =>
      obtain ⟨E, h1, h2, h3⟩ := ih (fun e' he' => hms e' (by simp [he']))
      obtain ⟨x, hx, hxi, hxe⟩ := hms e (by simp)
      refine ⟨(x, e.2) :: E, ?_, ?_, ?_⟩
      · rw [List.map_cons, ← h1, ← hxe]
      · intro e' he'
        rcases List.mem_cons.1 he' with rfl | he'
        · exact hx
        · exact h2 e' he'
      · intro e' he'
        rcases List.mem_cons.1 he' with rfl | he'
        · exact hxi
        · exact h3 e' he'
  obtain ⟨m, hm, L, l1, l2, l3, l4⟩ := collect_spec hsort hNO hEb (ms.map List.length).sum
  have hLi := i64_of_total hEi l4
  rw [hE, hm]
  simp only [Option.bind_some]
  rw [l1, ndBuild_eq l3 hLi]
  have hent : (CooNd.ofEntries (List.zipWith max ash bsh) L).entries = L :=
    CooNd.entries_ofEntries _ _ (fun e he => (l3 e he).length)
  have hsorted : (CooNd.ofEntries (List.zipWith max ash bsh) L).Sorted := by
    unfold CooNd.Sorted; rw [hent]; exact l2
  refine ⟨_, rfl, rfl, CooNd.wf_of_inBounds hrank l3, hsorted, fun y hy => ?_⟩
  rw [mem_entries_nodup_val (t := total E y) hsorted (fun v => by rw [hent]; exact l4 y v), total_getD]
  have hyl : y.length = d := by rw [hy.length, hlo]
  rw [← hvala y hyl, ← hvalb y hyl, ← allprods_sum hc hA hB hnd (fun k => by
    rw [hmem, List.map_map, List.map_map]; rfl) hy, ← t4, hE, List.filter_map, List.map_map]
  congr 1
  rw [show (Prod.snd ∘ fun e : List Int × V => (rowMajor (List.zipWith max ash bsh) e.1, e.2)) = Prod.snd from rfl]
  congr 1
  apply List.filter_congr
  intro e he
  rw [Bool.eq_iff_iff]
  simp only [beq_iff_eq, Function.comp]
  exact ⟨fun h => by rw [h], fun h => rowMajor_inj (hEb e he) hy h⟩

/-- C21: shapes that do not broadcast are rejected. -/
theorem broadcast_mul_incompatible [Zero V] [Add V] [Mul V] (order : List Nat → List Nat → List Nat)
    (nthreads : Nat) (sort : List (Nat × V) → List (Nat × V)) (a b : CooNd V)
    (h : ¬ ∃ out, IsBroadcast a.shape b.shape out) : broadcastMulNd order nthreads sort a b = none := by
  unfold broadcastMulNd
  simp only
  cases hs : broadcastShape? (padShape (max a.shape.length b.shape.length) a.shape)
      (padShape (max a.shape.length b.shape.length) b.shape) with
  | none => rfl
  | some out =>
    exfalso; apply h
    have hc := broadcastShape?_compat (by
      rw [padShape_length (Nat.le_max_left _ _), padShape_length (Nat.le_max_right _ _)]) hs
    exact ⟨_, isBroadcast_iff.2 ⟨hc, rfl⟩⟩

/-- Witnesses: a `2×1×2` array times a `3×1` array gives a `2×3×2` array. -/
def exP : CooNd Int := ⟨[2, 1, 2], [0, 0, 1, 1, 0, 0], [4, 5]⟩
def exR3 : CooNd Int := ⟨[3, 1], [2, 0, 0, 0, 2, 0], [-5, 2, 1]⟩
theorem exP_wf : exP.WF := ((coond_fromParts_iff _ _ _ _).1 (show CooNd.fromParts exP.shape exP.indices exP.data true = .ok exP from rfl)).2.2
theorem exR3_wf : exR3.WF := ((coond_fromParts_iff _ _ _ _).1 (show CooNd.fromParts exR3.shape exR3.indices exR3.data true = .ok exR3 from rfl)).2.2
theorem exBcast : IsBroadcast exP.shape exR3.shape [2, 3, 2] :=
  isBroadcast_iff.2 ⟨.cons (by decide) (.cons (by decide) (.cons (by decide) .nil)), rfl⟩

theorem isCommonKeys_filter : IsCommonKeys (fun la lb => (la.filter fun k => lb.contains k).dedup) := by
  intro la lb
  refine ⟨List.nodup_dedup _, fun k => ?_⟩
  rw [List.mem_dedup, List.mem_filter]
  simp

example : ∃ r, broadcastMulNd (fun la lb => (la.filter fun k => lb.contains k).dedup) 4
      (fun l => l.mergeSort (fun a b => decide (a.1 ≤ b.1))) exP exR3 = some r ∧ r.shape = [2, 3, 2] ∧
    r.val [0, 2, 1] = -16 ∧ r.val [1, 0, 0] = 10 ∧ r.val [1, 1, 0] = 0 := by
  obtain ⟨r, h1, h2, -, -, h3⟩ := broadcast_mul_correct isCommonKeys_filter 4 isSort_mergeSort exP_wf exR3_wf
    (by unfold CooNd.I64; decide) (by unfold CooNd.I64; decide) exBcast (by decide)
  refine ⟨r, h1, h2, ?_⟩
  rw [h3, h3, h3]
  · decide
  all_goals exact .cons (by decide) (.cons (by decide) (.cons (by decide) .nil))

/-- Disagreement with NumPy: an extent 0 against an extent 1 yields extent 1 (NumPy: 0). -/
theorem broadcast_zero_extent [Zero V] [Add V] [Mul V] (order) (nthreads) (sort : List (Nat × V) → List (Nat × V)) :
    broadcastMulNd order nthreads sort ⟨[0], [], []⟩ ⟨[1], [], []⟩ = some ⟨[1], [], []⟩ := rfl

/-- Disagreement with the documentation ("zeros are filtered"): explicit zero products are kept. -/
theorem broadcast_keeps_zeros (order : List Nat → List Nat → List Nat) (horder : IsCommonKeys order)
    (sort : List (Nat × Int) → List (Nat × Int)) (hsort : IsSort sort) :
    ∃ r, broadcastMulNd order 1 sort (⟨[1], [0], [0]⟩ : CooNd Int) ⟨[1], [0], [5]⟩ = some r ∧ r.data = [0] := by
  have hk : order [0] [0] = [0] := by
    obtain ⟨h1, h2⟩ := horder [0] [0]
    have h3 : ∀ k ∈ order [0] [0], k = 0 := fun k hk => by simpa using ((h2 k).1 hk).1
    have h4 : 0 ∈ order [0] [0] := (h2 0).2 (by simp)
    match h : order [0] [0] with
    | [] => rw [h] at h4; simp at h4
    | [x] => rw [h] at h3; rw [h3 x (by simp)]
    | x :: y :: l =>
      rw [h] at h3 h1
      have hx := h3 x (by simp); have hy := h3 y (by simp)
      subst hx; subst hy; simp at h1
  have hs : sort [(0, 0)] = [(0, 0)] := List.perm_singleton.1 (hsort _).1
  have hch : chunksOf 1 [0] = [[0]] := by
    rw [chunksOf]; simp; rw [chunksOf]; simp
  have hcp : chunkPairs [1] [1] [(0, ([0], (0 : Int)))] [(0, ([0], 5))] [0] = some [(0, 0)] := by decide +kernel
  have hm : (((HMap.withCapacity 1 : HMap Int).insertAll [(0, 0)]).map fun m => m.pairs) = some [(0, 0)] := by
    decide +kernel
  obtain ⟨m, hm1, hm2⟩ := Option.map_eq_some_iff.1 hm
  refine ⟨⟨[1], [0], [0]⟩, ?_, rfl⟩
  show ((chunksOf (max 1 ((order [0] [0]).length / (max 1 1 * 4))) (order [0] [0])).mapM
    (chunkPairs [1] [1] [(0, ([0], (0 : Int)))] [(0, ([0], 5))])).bind _ = _
  rw [hk, show max 1 ([0].length / (max 1 1 * 4)) = 1 from rfl, hch, List.mapM_cons, hcp, List.mapM_nil]
  simp only [Option.bind_eq_bind, Option.pure_def, Option.bind_some, List.flatten_cons, List.flatten_nil, List.append_nil,
    List.map_cons, List.map_nil, List.length_cons, List.length_nil, List.sum_cons, List.sum_nil, Nat.zero_add, Nat.add_zero]
  rw [hm1]
  simp only [Option.bind_some]
  rw [hm2, hs]
  rfl

end Lacuna
