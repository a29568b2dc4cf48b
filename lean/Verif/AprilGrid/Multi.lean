import Verif.AprilGrid.Reads
import Mathlib.Data.List.Forall2

/-! Lemmas about intersections and common measurements. -/

namespace Yac.AprilGrid
open Spec
variable {K : Type} [Field K]
variable {ts : Int} {rows cols : Nat} {size spacing : K} {m : CMap K} {extra : Nat} {g : Grid K}

/-- The map without the corners whose row index is in `L`. -/
def eraseRows (m : CMap K) (L : List Int) : CMap K :=
  fun t c => if t * 4 + c ∈ L then none else m t c

theorem dropRow_core (h : Core ts rows cols size spacing m extra g) {i : Nat}
    (hi : i < rows * cols * 4) :
    ∃ g', dropRowPos g i = .ok g' ∧ dropRowNz g i = .ok g' ∧
      Core ts rows cols size spacing (eraseRows m [(i : Int)]) extra g' ∧
      g'.detected = g.detected := by
  have hlen : i < g.data.length := by rw [h.length]; exact hi
  have hrow : g.data[i] = rowFor cols size spacing i (m ((i / 4 : Nat) : Int) ((i % 4 : Nat) : Int)) := by
    simp only [h.data, tableOf, tab_get]
  have hne : ∀ j, j ≠ i → eraseRows m [(i : Int)] ((j / 4 : Nat) : Int) ((j % 4 : Nat) : Int) =
      m ((j / 4 : Nat) : Int) ((j % 4 : Nat) : Int) := by
    intro j hj
    have : ¬ (((j / 4 : Nat) : Int) * 4 + ((j % 4 : Nat) : Int) ∈ [(i : Int)]) := by
      simp only [List.mem_singleton]; omega
    simp only [eraseRows, if_neg this]
  have heq : eraseRows m [(i : Int)] ((i / 4 : Nat) : Int) ((i % 4 : Nat) : Int) = none := by
    have : (((i / 4 : Nat) : Int) * 4 + ((i % 4 : Nat) : Int) ∈ [(i : Int)]) := by
      simp only [List.mem_singleton]; omega
    simp only [eraseRows, if_pos this]
  have hcnt := countP_update (rows * cols * 4) i hi (heldAt m) (heldAt (eraseRows m [(i : Int)]))
    (fun j hj => by rw [heldAt, heldAt, hne j hj])
  have hq : heldAt (eraseRows m [(i : Int)]) i = false := by rw [heldAt, heq]; rfl
  rw [hq, heldAt_def m i] at hcnt
  rw [dropRowPos, dropRowNz, readRow_nat _ _ hlen, ok_bind, ok_bind, hrow]
  cases hm : m ((i / 4 : Nat) : Int) ((i % 4 : Nat) : Int) with
  | none =>
    rw [hm] at hcnt
    simp only [rowFor, zeroRow, gt_iff_lt, lt_self_iff_false, if_false, pure_eq_ok, ne_eq,
      not_true_eq_false]
    refine ⟨g, rfl, rfl, ⟨h.hinit, h.hts, h.hrows, h.hcols, h.hsize, h.hspacing, ?_, ?_⟩, rfl⟩
    · rw [h.data]
      apply tab_congr
      intro j _
      by_cases hj : j = i
      · subst hj; rw [heq, hm]
      · rw [hne j hj]
    · rw [h.nb]; simp at hcnt; omega
  | some kp =>
    rw [hm] at hcnt
    simp only [Option.isSome_some, if_true] at hcnt
    simp only [rowFor, gt_iff_lt, zero_lt_one, if_true, ne_eq, one_ne_zero, not_false_eq_true]
    rw [writeRow_nat _ _ _ hlen, ok_bind, pure_eq_ok]
    refine ⟨_, rfl, rfl, ⟨h.hinit, h.hts, h.hrows, h.hcols, h.hsize, h.hspacing, ?_, ?_⟩, rfl⟩
    · simp only [h.data, tableOf, tab_set]
      apply tab_congr
      intro j _
      by_cases hj : j = i
      · subst hj; rw [if_pos rfl, heq]; rfl
      · rw [if_neg hj, hne j hj]
    · simp only [h.nb]; simp at hcnt; omega

omit [Field K] in
theorem eraseRows_nil (m : CMap K) : eraseRows m [] = m := by
  funext t c; simp [eraseRows]

omit [Field K] in
theorem eraseRows_cons (m : CMap K) (i : Int) (L : List Int) :
    eraseRows (eraseRows m [i]) L = eraseRows m (i :: L) := by
  funext t c
  simp only [eraseRows, List.mem_cons, List.not_mem_nil, or_false]
  by_cases h : t * 4 + c = i <;> by_cases h' : t * 4 + c ∈ L <;> simp [h, h']

theorem dropRows_core (L : List Int) : ∀ {m : CMap K} {g : Grid K},
    Core ts rows cols size spacing m extra g →
    (∀ i ∈ L, 0 ≤ i ∧ i < (rows * cols * 4 : Nat)) →
    ∃ g', L.foldlM dropRowNz g = .ok g' ∧
      Core ts rows cols size spacing (eraseRows m L) extra g' ∧ g'.detected = g.detected := by
  induction L with
  | nil => intro m g h _; exact ⟨g, rfl, by rw [eraseRows_nil]; exact h, rfl⟩
  | cons i L ih =>
    intro m g h hL
    obtain ⟨h0, h1⟩ := hL i (by simp)
    obtain ⟨i, rfl⟩ := Int.eq_ofNat_of_zero_le h0
    obtain ⟨g1, _, e1, c1, d1⟩ := dropRow_core h (i := i) (by exact_mod_cast h1)
    obtain ⟨g2, e2, c2, d2⟩ := ih c1 (fun j hj => hL j (List.mem_cons_of_mem _ hj))
    rw [eraseRows_cons] at c2
    exact ⟨g2, by rw [List.foldlM_cons, e1, ok_bind, e2], c2, by rw [d2, d1]⟩

theorem dropPairs_core {ts' : Int} {size' spacing' : K} {extra' : Nat} (L : List Int) :
    ∀ {m m' : CMap K} {g g' : Grid K},
    Core ts rows cols size spacing m extra g → Core ts' rows cols size' spacing' m' extra' g' →
    (∀ i ∈ L, 0 ≤ i ∧ i < (rows * cols * 4 : Nat)) →
    ∃ a b, L.foldlM (fun (g : Grid K × Grid K) i => do
        let a ← dropRowPos g.1 i
        let b ← dropRowPos g.2 i
        pure (a, b)) (g, g') = .ok (a, b) ∧
      Core ts rows cols size spacing (eraseRows m L) extra a ∧
      Core ts' rows cols size' spacing' (eraseRows m' L) extra' b ∧
      a.detected = g.detected ∧ b.detected = g'.detected := by
  induction L with
  | nil => intro m m' g g' h h' _
           exact ⟨g, g', rfl, by rw [eraseRows_nil]; exact h, by rw [eraseRows_nil]; exact h', rfl, rfl⟩
  | cons i L ih =>
    intro m m' g g' h h' hL
    obtain ⟨h0, h1⟩ := hL i (by simp)
    obtain ⟨i, rfl⟩ := Int.eq_ofNat_of_zero_le h0
    obtain ⟨a1, e1, _, c1, d1⟩ := dropRow_core h (i := i) (by exact_mod_cast h1)
    obtain ⟨b1, f1, _, k1, l1⟩ := dropRow_core h' (i := i) (by exact_mod_cast h1)
    obtain ⟨a, b, e2, c2, k2, d2, l2⟩ := ih c1 k1 (fun j hj => hL j (List.mem_cons_of_mem _ hj))
    rw [eraseRows_cons] at c2 k2
    refine ⟨a, b, ?_, c2, k2, by rw [d2, d1], by rw [l2, l1]⟩
    rw [List.foldlM_cons]
    simp only [e1, f1, ok_bind, pure_eq_ok]
    simpa only [pure_eq_ok] using e2

theorem heldRows_eq (h : Core ts rows cols size spacing m extra g) :
    forRows g.data (rows * cols * 4) []
      (fun acc i r => if r.flag ≠ 0 then acc ++ [(i : Int)] else acc) =
    .ok (((List.range (rows * cols * 4)).filter (heldAt m)).map (fun (i : Nat) => (i : Int))) := by
  rw [h.data, tableOf, forRows_tab]
  simp only [flag_ne_zero, flag_pos]
  rw [foldl_push, List.nil_append]
  congr 3
  funext i
  simp [heldAt_def]

theorem heldRows_sorted (n : Nat) (p : Nat → Bool) :
    (((List.range n).filter p).map (fun (i : Nat) => (i : Int))).Pairwise (· < ·) := by
  rw [List.pairwise_map]
  refine List.Pairwise.imp ?_ ((List.pairwise_lt_range (n := n)).filter p)
  intro a b h; omega

omit [Field K] in
theorem mem_heldRows (rows cols : Nat) (m : CMap K) (i : Int) :
    i ∈ ((List.range (rows * cols * 4)).filter (heldAt m)).map (fun (i : Nat) => (i : Int)) ↔
      ∃ j : Nat, j < rows * cols * 4 ∧ heldAt m j = true ∧ (j : Int) = i := by
  simp [and_assoc]

omit [Field K] in
theorem heldAt_valid {t c : Int} (hv : Valid rows cols t c) (m : CMap K) :
    (∃ j : Nat, j < rows * cols * 4 ∧ heldAt m j = true ∧ (j : Int) = t * 4 + c) ↔
      (m t c).isSome = true := by
  obtain ⟨t, c, rfl, rfl, ht, hc, hidx, hlt, hd4, hm4⟩ := valid_index hv
  constructor
  · rintro ⟨j, hj, hh, he⟩
    have : j = t * 4 + c := by omega
    subst this
    rwa [heldAt, hd4, hm4] at hh
  · intro h
    exact ⟨t * 4 + c, hlt, by rw [heldAt, hd4, hm4]; exact h, by rw [hidx]⟩

/-- `m` restricted to the corners that `m'` holds too. -/
def restrict (m m' : CMap K) : CMap K :=
  fun t c => if (m' t c).isSome then m t c else none

theorem intersect_core {ts' : Int} {size' spacing' : K} {m' : CMap K} {extra' : Nat}
    {g' : Grid K} (h : Core ts rows cols size spacing m extra g)
    (h' : Core ts' rows cols size' spacing' m' extra' g') :
    ∃ a b, intersect g g' = .ok (a, b) ∧
      Core ts rows cols size spacing (restrict m m') extra a ∧
      Core ts' rows cols size' spacing' (restrict m' m) extra' b ∧
      a.detected = g.detected ∧ b.detected = g'.detected := by
  have s0 := heldRows_sorted (rows * cols * 4) (heldAt m)
  have s1 := heldRows_sorted (rows * cols * 4) (heldAt m')
  obtain ⟨_, hmem⟩ := setSymDiff_spec _ _ s0 s1
  simp only [mem_heldRows] at hmem
  obtain ⟨a, b, e, ca, cb, da, db⟩ := dropPairs_core
    (setSymDiff (((List.range (rows * cols * 4)).filter (heldAt m)).map (fun (i : Nat) => (i : Int)))
      (((List.range (rows * cols * 4)).filter (heldAt m')).map (fun (i : Nat) => (i : Int)))) h h' (by
    intro i hi
    rcases (hmem i).mp hi with ⟨⟨j, hj, _, rfl⟩, _⟩ | ⟨⟨j, hj, _, rfl⟩, _⟩ <;>
      exact ⟨by omega, by exact_mod_cast hj⟩)
  refine ⟨a, b, ?_, ca.congr ?_, cb.congr ?_, da, db⟩
  · rw [intersect, h.hrows, h.hcols, heldRows_eq h, ok_bind, heldRows_eq h', ok_bind]
    exact e
  · intro t c hv
    simp only [eraseRows, hmem, heldAt_valid hv, restrict]
    cases m t c <;> cases m' t c <;> simp
  · intro t c hv
    simp only [eraseRows, hmem, heldAt_valid hv, restrict]
    cases m t c <;> cases m' t c <;> simp

/-! ### list version -/

/-- counter invariant: exactly the keys `0..n-1`, with the counts `cnt`. -/
def CounterInv (n : Nat) (cnt : Nat → Int) (c : List (Int × Int)) : Prop :=
  SMap.Sorted c ∧ ∀ k : Int, SMap.find k c =
    if 0 ≤ k ∧ k < n then some (cnt k.toNat) else none

theorem counter0_inv (n : Nat) : CounterInv n (fun _ => 0)
    ((List.range n).foldl (fun c (i : Nat) => SMap.set (i : Int) (0 : Int) c) []) := by
  induction n with
  | zero => exact ⟨by simp [SMap.Sorted], by intro k; simp [SMap.find]⟩
  | succ n ih =>
    rw [List.range_succ, List.foldl_append, List.foldl_cons, List.foldl_nil]
    refine ⟨SMap.set_sorted _ _ _ ih.1, fun k => ?_⟩
    rw [SMap.find_set, ih.2]
    split_ifs <;> first | rfl | omega

theorem countRows_inv (h : Core ts rows cols size spacing m extra g) (cnt : Nat → Int)
    (c : List (Int × Int)) (hc : CounterInv (rows * cols * 4) cnt c) :
    ∃ c', countRows c g = .ok c' ∧
      CounterInv (rows * cols * 4) (fun i => cnt i + if heldAt m i then 1 else 0) c' := by
  rw [countRows, h.data, h.hrows, h.hcols, tableOf, forRows_tab]
  refine ⟨_, rfl, ?_⟩
  simp only [flag_ne_zero, flag_pos]
  -- process the rows one by one
  have key : ∀ k ≤ rows * cols * 4, CounterInv (rows * cols * 4)
      (fun i => cnt i + if i < k ∧ heldAt m i = true then 1 else 0)
      ((List.range k).foldl (fun (c : List (Int × Int)) i =>
        if (m ((i / 4 : Nat) : Int) ((i % 4 : Nat) : Int)).isSome = true then
          SMap.set (i : Int) ((SMap.find (i : Int) c).getD 0 + 1) c else c) c) := by
    intro k
    induction k with
    | zero => intro _; simpa [CounterInv] using hc
    | succ k ih =>
      intro hk
      have ih := ih (by omega)
      rw [List.range_succ, List.foldl_append, List.foldl_cons, List.foldl_nil]
      generalize (List.range k).foldl (fun (c : List (Int × Int)) i =>
        if (m ((i / 4 : Nat) : Int) ((i % 4 : Nat) : Int)).isSome = true then
          SMap.set (i : Int) ((SMap.find (i : Int) c).getD 0 + 1) c else c) c = c1 at ih
      have hkv : SMap.find (k : Int) c1 = some (cnt k) := by
        rw [ih.2]; rw [if_pos (by omega)]; simp
      by_cases hh : heldAt m k = true
      · rw [heldAt_def] at hh
        rw [if_pos hh, hkv]
        refine ⟨SMap.set_sorted _ _ _ ih.1, fun q => ?_⟩
        rw [SMap.find_set, ih.2]
        by_cases hq : q = (k : Int)
        · subst hq
          have h0 : (0 : Int) ≤ (k : Int) ∧ (k : Int) < (rows * cols * 4 : Nat) := by omega
          rw [if_pos rfl, if_pos h0]
          have hh2 : heldAt m k = true := by rw [heldAt_def, hh]
          simp [hh2]
        · rw [if_neg hq]
          by_cases hr : 0 ≤ q ∧ q < (rows * cols * 4 : Nat)
          · rw [if_pos hr, if_pos hr]
            have : (q.toNat < k) ↔ (q.toNat < k + 1) := by omega
            simp only [this]
          · rw [if_neg hr, if_neg hr]
      · have hh' := hh
        rw [heldAt_def] at hh
        rw [if_neg hh]
        refine ⟨ih.1, fun q => ?_⟩
        rw [ih.2]
        by_cases hr : 0 ≤ q ∧ q < (rows * cols * 4 : Nat)
        · rw [if_pos hr, if_pos hr]
          have : (q.toNat < k ∧ heldAt m q.toNat = true) ↔ (q.toNat < k + 1 ∧ heldAt m q.toNat = true) := by
            constructor
            · rintro ⟨h1, h2⟩; exact ⟨by omega, h2⟩
            · rintro ⟨h1, h2⟩
              refine ⟨?_, h2⟩
              have : q.toNat ≠ k := by rintro rfl; exact hh' h2
              omega
          simp only [this]
        · rw [if_neg hr, if_neg hr]
  have hfin := key _ le_rfl
  refine ⟨hfin.1, fun k => ?_⟩
  rw [hfin.2]
  by_cases hr : 0 ≤ k ∧ k < (rows * cols * 4 : Nat)
  · rw [if_pos hr, if_pos hr]
    have : k.toNat < rows * cols * 4 := by omega
    simp [this]
  · rw [if_neg hr, if_neg hr]

/-- A grid refines a map on an `rows x cols` board, whatever its other fields. -/
def Refines (rows cols : Nat) (m : CMap K) (g : Grid K) : Prop :=
  ∃ ts size spacing extra, Core ts rows cols size spacing m extra g

theorem countAll_inv (grids : List (Grid K)) (maps : List (CMap K)) :
    List.Forall₂ (Refines rows cols) maps grids → ∀ (cnt : Nat → Int) (c : List (Int × Int)),
    CounterInv (rows * cols * 4) cnt c →
    ∃ c', grids.foldlM countRows c = .ok c' ∧
      CounterInv (rows * cols * 4) (fun i => cnt i + ((maps.countP (fun m => heldAt m i) : Nat) : Int)) c' := by
  intro h
  induction h with
  | nil => intro cnt c hc; exact ⟨c, rfl, by simpa using hc⟩
  | @cons m g maps grids h1 h2 ih =>
    intro cnt c hc
    obtain ⟨_, _, _, _, hcore⟩ := h1
    obtain ⟨c1, e1, i1⟩ := countRows_inv hcore cnt c hc
    obtain ⟨c2, e2, i2⟩ := ih _ _ i1
    refine ⟨c2, by rw [List.foldlM_cons, e1, ok_bind, e2], ?_⟩
    have : (fun i => cnt i + (if heldAt m i = true then 1 else 0) +
        ((maps.countP (fun m => heldAt m i) : Nat) : Int)) =
        (fun i => cnt i + (((m :: maps).countP (fun m => heldAt m i) : Nat) : Int)) := by
      funext i
      rw [List.countP_cons]
      push_cast
      split_ifs <;> omega
    rw [← this]; exact i2

theorem mapM_drop (L : List Int) (hL : ∀ i ∈ L, 0 ≤ i ∧ i < (rows * cols * 4 : Nat))
    (grids : List (Grid K)) (maps : List (CMap K)) :
    List.Forall₂ (Refines rows cols) maps grids →
    ∃ out, grids.mapM (fun g => L.foldlM dropRowNz g) = .ok out ∧
      List.Forall₂ (Refines rows cols) (maps.map (fun m => eraseRows m L)) out := by
  intro h
  induction h with
  | nil => exact ⟨[], rfl, by simp⟩
  | @cons m g maps grids h1 h2 ih =>
    obtain ⟨ts, sz, sp, ex, hcore⟩ := h1
    obtain ⟨g', e, hc, _⟩ := dropRows_core L hcore hL
    obtain ⟨out, e', hf⟩ := ih
    refine ⟨g' :: out, ?_, ?_⟩
    · rw [List.mapM_cons, e, ok_bind, e', ok_bind]; rfl
    · rw [List.map_cons]
      exact List.Forall₂.cons ⟨ts, sz, sp, ex, hc⟩ hf

theorem intersectAll_core (maps : List (CMap K)) (grids : List (Grid K))
    (h : List.Forall₂ (Refines rows cols) maps grids) (hne : grids ≠ []) :
    ∃ out L, intersectAll grids = .ok out ∧
      List.Forall₂ (Refines rows cols) (maps.map (fun m => eraseRows m L)) out ∧
      ∀ t c, Valid rows cols t c → (t * 4 + c ∈ L ↔ ¬ ∀ m ∈ maps, (m t c).isSome = true) := by
  have hlen : maps.length = grids.length := h.length_eq
  obtain ⟨c, ec, ic⟩ := countAll_inv grids maps h _ _ (counter0_inv (rows * cols * 4))
  set L : List Int := c.filterMap (fun kv => if kv.2 ≠ (grids.length : Int) then some kv.1 else none)
    with hLdef
  have hmem : ∀ i : Int, i ∈ L ↔ (0 ≤ i ∧ i < (rows * cols * 4 : Nat)) ∧
      ((maps.countP (fun m => heldAt m i.toNat) : Nat) : Int) ≠ grids.length := by
    intro i
    rw [hLdef, List.mem_filterMap]
    constructor
    · rintro ⟨⟨k, v⟩, hkv, he⟩
      by_cases hv : v ≠ (grids.length : Int)
      · rw [if_pos hv] at he
        simp only [Option.some.injEq] at he
        subst he
        rw [← SMap.find_eq_some ic.1, ic.2] at hkv
        split_ifs at hkv with hr
        simp only [Option.some.injEq, zero_add] at hkv
        exact ⟨hr, by rw [hkv]; exact hv⟩
      · rw [if_neg hv] at he; exact absurd he (by simp)
    · rintro ⟨hr, hne⟩
      refine ⟨(i, ((maps.countP (fun m => heldAt m i.toNat) : Nat) : Int)), ?_, by simp only [if_pos hne]⟩
      rw [← SMap.find_eq_some ic.1, ic.2, if_pos hr]
      simp
  obtain ⟨out, eo, ho⟩ := mapM_drop L (fun i hi => ((hmem i).mp hi).1) grids maps h
  refine ⟨out, L, ?_, ho, ?_⟩
  · obtain ⟨g, gs, rfl⟩ := List.exists_cons_of_ne_nil hne
    cases h with
    | cons h1 h2 =>
      obtain ⟨_, _, _, _, hcore⟩ := h1
      rw [intersectAll]
      simp only [ok_bind, hcore.hrows, hcore.hcols]
      rw [ec, ok_bind]
      exact eo
  · intro t c hv
    rw [hmem]
    obtain ⟨t, c, rfl, rfl, ht, hc, hidx, hlt, hd4, hm4⟩ := valid_index hv
    rw [hidx, Int.toNat_natCast]
    have h0 : (0 : Int) ≤ ((t * 4 + c : Nat) : Int) ∧ ((t * 4 + c : Nat) : Int) < (rows * cols * 4 : Nat) := by omega
    simp only [h0, and_self, true_and]
    have hh : ∀ m : CMap K, heldAt m (t * 4 + c) = (m t c).isSome := by
      intro m; rw [heldAt, hd4, hm4]
    rw [← hlen, ne_eq, not_iff_not, Nat.cast_inj, List.countP_eq_length]
    simp only [hh]

/-! ### common measurements -/

theorem common_core {ts' : Int} {size' spacing' : K} {m' : CMap K} {extra' : Nat}
    {g' : Grid K} (h : Core ts rows cols size spacing m extra g)
    (h' : Core ts' rows cols size' spacing' m' extra' g')
    (hd : g.detected = true) (hd' : g'.detected = true) (out : Common K) :
    commonMeasurements g g' out =
      let l := (allCorners rows cols).filterMap (fun tc =>
        match m tc.1 tc.2, m' tc.1 tc.2 with
        | some a, some b => some (tc, a, b)
        | _, _ => none)
      .ok ⟨out.tagIds ++ l.map (fun e => e.1.1), out.corners ++ l.map (fun e => e.1.2),
        out.kpsI ++ l.map (fun e => e.2.1), out.kpsJ ++ l.map (fun e => e.2.2),
        out.points ++ l.map (fun e => boardAt cols size spacing e.1)⟩ := by
  have hl : g.data.length = g'.data.length := by rw [h.length, h'.length]
  rw [commonMeasurements, if_neg (by simp [hd, hd']), if_neg (by simp [hl])]
  rw [allCorners_eq, tab, List.filterMap_map, h.length]
  have key : ∀ (l : List Nat), (∀ i ∈ l, i < rows * cols * 4) → ∀ out : Common K,
      l.foldlM (fun acc (i : Nat) => do
        let ri ← readRow g.data (i : Int)
        let rj ← readRow g'.data (i : Int)
        pure (if ri.flag ≠ 0 ∧ rj.flag ≠ 0 then
          ⟨acc.tagIds ++ [((i / 4 : Nat) : Int)], acc.corners ++ [((i % 4 : Nat) : Int)],
            acc.kpsI ++ [(ri.kx, ri.ky)], acc.kpsJ ++ [(rj.kx, rj.ky)],
            acc.points ++ [(ri.px, ri.py, ri.pz)]⟩
          else acc)) out =
      (let l := l.filterMap ((fun tc =>
        match m tc.1 tc.2, m' tc.1 tc.2 with
        | some a, some b => some (tc, a, b)
        | _, _ => none) ∘ (fun i => (((i / 4 : Nat) : Int), ((i % 4 : Nat) : Int))))
      .ok ⟨out.tagIds ++ l.map (fun e => e.1.1), out.corners ++ l.map (fun e => e.1.2),
        out.kpsI ++ l.map (fun e => e.2.1), out.kpsJ ++ l.map (fun e => e.2.2),
        out.points ++ l.map (fun e => boardAt cols size spacing e.1)⟩ : Except Fault (Common K)) := by
    intro l
    induction l with
    | nil => intro _ out; simp
    | cons i l ih =>
      intro hi out
      have hi0 := hi i (by simp)
      have ih := ih (fun j hj => hi j (List.mem_cons_of_mem _ hj))
      rw [List.foldlM_cons, readRow_nat _ _ (by rw [h.length]; exact hi0), ok_bind,
        readRow_nat _ _ (by rw [h'.length]; exact hi0), ok_bind, pure_eq_ok, ok_bind, ih]
      have r1 : g.data[i]'(by rw [h.length]; exact hi0) =
        rowFor cols size spacing i (m ((i / 4 : Nat) : Int) ((i % 4 : Nat) : Int)) := by
        simp only [h.data, tableOf, tab_get]
      have r2 : g'.data[i]'(by rw [h'.length]; exact hi0) =
        rowFor cols size' spacing' i (m' ((i / 4 : Nat) : Int) ((i % 4 : Nat) : Int)) := by
        simp only [h'.data, tableOf, tab_get]
      rw [r1, r2, List.filterMap_cons]
      simp only [flag_ne_zero, flag_pos, Function.comp]
      cases hm1 : m ((i / 4 : Nat) : Int) ((i % 4 : Nat) : Int) <;>
        cases hm2 : m' ((i / 4 : Nat) : Int) ((i % 4 : Nat) : Int) <;>
        simp only [Option.isSome_none, Option.isSome_some, if_true, and_true, true_and,
          if_false, and_self, false_and, and_false, Bool.false_eq_true]
      simp only [List.map_cons, List.append_assoc, List.cons_append, List.nil_append, rowFor,
        boardAt, Int.toNat_natCast]
  exact key _ (fun i hi => List.mem_range.mp hi) out

end Yac.AprilGrid
