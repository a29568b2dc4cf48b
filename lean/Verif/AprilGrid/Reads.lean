import Verif.AprilGrid.Lemmas

/-! Results of the reading functions on a grid that refines a map. -/

namespace Yac.AprilGrid
open Spec
variable {K : Type} [Field K]
variable {ts : Int} {rows cols : Nat} {size spacing : K} {m : CMap K} {extra : Nat} {g : Grid K}

theorem Core.length (h : Core ts rows cols size spacing m extra g) :
    g.data.length = rows * cols * 4 := by rw [h.data, tableOf, tab_length]

theorem Core.row (h : Core ts rows cols size spacing m extra g) {t c : Int}
    (hv : Valid rows cols t c) :
    readRow g.data (t * 4 + c) = .ok (rowFor cols size spacing (t.toNat * 4 + c.toNat) (m t c)) := by
  obtain ⟨t, c, rfl, rfl, ht, hc, hidx, hlt, hd4, hm4⟩ := valid_index hv
  rw [hidx, readRow_nat _ _ (by rw [h.length]; exact hlt)]
  simp only [h.data, tableOf, tab_get, hd4, hm4, Int.toNat_natCast]

theorem Core.has_eq (h : Core ts rows cols size spacing m extra g) {t c : Int}
    (hv : Valid rows cols t c) : has g t c = .ok (m t c).isSome := by
  rw [has, if_pos h.hinit, h.row hv, ok_bind]
  cases hm : m t c <;> simp [rowFor, zeroRow]

theorem Core.keypoint_eq (h : Core ts rows cols size spacing m extra g) {t c : Int}
    (hv : Valid rows cols t c) :
    keypoint g t c = match m t c with | some kp => .ok kp | none => .error .fatal := by
  rw [keypoint, h.row hv, ok_bind]
  cases hm : m t c <;> simp [rowFor, zeroRow]

omit [Field K] in
theorem held_eq (rows cols : Nat) (m : CMap K) :
    held rows cols m = (List.range (rows * cols * 4)).filterMap (fun i =>
      (m ((i / 4 : Nat) : Int) ((i % 4 : Nat) : Int)).map
        (fun kp => ((((i / 4 : Nat) : Int), ((i % 4 : Nat) : Int)), kp))) := by
  rw [held, allCorners_eq, tab, List.filterMap_map]
  rfl

/-- A loop that pushes for every positive row is a fold over the held corners. -/
theorem fold_rows {β : Type} (cols : Nat) (size spacing : K) (m : CMap K) (f : β → Nat → Row K → β)
    (l : List Nat) : ∀ b : β,
    l.foldl (fun acc i => if (rowFor cols size spacing i (m ((i / 4 : Nat) : Int) ((i % 4 : Nat) : Int))).flag > 0
        then f acc i (rowFor cols size spacing i (m ((i / 4 : Nat) : Int) ((i % 4 : Nat) : Int))) else acc) b =
      (l.filterMap (fun i => (m ((i / 4 : Nat) : Int) ((i % 4 : Nat) : Int)).map (fun kp => (i, kp)))).foldl
        (fun acc p => f acc p.1 (rowFor cols size spacing p.1 (some p.2))) b := by
  induction l with
  | nil => intro b; rfl
  | cons i l ih =>
    intro b
    rw [List.foldl_cons, ih, List.filterMap_cons]
    cases hm : m ((i / 4 : Nat) : Int) ((i % 4 : Nat) : Int) <;> simp [rowFor, zeroRow]

theorem flag_ne_zero (cols : Nat) (size spacing : K) (i : Nat) (o : Option (K × K)) :
    (rowFor cols size spacing i o).flag ≠ 0 ↔ (rowFor cols size spacing i o).flag > 0 := by
  cases o <;> simp [rowFor, zeroRow]

theorem flag_pos (cols : Nat) (size spacing : K) (i : Nat) (o : Option (K × K)) :
    (rowFor cols size spacing i o).flag > 0 ↔ o.isSome = true := by
  cases o <;> simp [rowFor, zeroRow]

theorem foldl_append_map {α β : Type} (l : List α) (v : α → β) : ∀ acc : List β,
    l.foldl (fun acc a => acc ++ [v a]) acc = acc ++ l.map v := by
  induction l with
  | nil => simp
  | cons a l ih => intro acc; simp [ih]

omit [Field K] in
theorem foldl_meas {α : Type} (l : List α) (a b : α → Int) (c : α → K × K) (d : α → K × K × K) :
    ∀ acc : Meas K, l.foldl (fun acc x => acc.push (a x) (b x) (c x) (d x)) acc =
      ⟨acc.tagIds ++ l.map a, acc.corners ++ l.map b, acc.keypoints ++ l.map c,
        acc.points ++ l.map d⟩ := by
  induction l with
  | nil => intro acc; simp
  | cons x l ih => intro acc; rw [List.foldl_cons, ih]; simp [Meas.push]

/-- The held corners as (row index, keypoint) pairs. -/
def heldIdx (n : Nat) (m : CMap K) : List (Nat × (K × K)) :=
  (List.range n).filterMap (fun i =>
    (m ((i / 4 : Nat) : Int) ((i % 4 : Nat) : Int)).map (fun kp => (i, kp)))

omit [Field K] in
theorem held_map (rows cols : Nat) (m : CMap K) :
    held rows cols m = (heldIdx (rows * cols * 4) m).map
      (fun p => ((((p.1 / 4 : Nat) : Int), ((p.1 % 4 : Nat) : Int)), p.2)) := by
  rw [held_eq, heldIdx, List.map_filterMap]
  congr 1
  funext i
  cases m ((i / 4 : Nat) : Int) ((i % 4 : Nat) : Int) <;> rfl

/-- Board position of a corner with `Int` indices. -/
def boardAt (cols : Nat) (size spacing : K) (tc : Int × Int) : K × K × K :=
  boardPoint cols size spacing tc.1.toNat tc.2.toNat

theorem Core.meas_loop (h : Core ts rows cols size spacing m extra g) (out : Meas K) :
    forRows g.data (g.tagRows * g.tagCols * 4) out
      (fun acc i r => if r.flag > 0 then
        acc.push ((i / 4 : Nat) : Int) ((i % 4 : Nat) : Int) (r.kx, r.ky) (r.px, r.py, r.pz)
        else acc) =
    .ok ⟨out.tagIds ++ (held rows cols m).map (fun e => e.1.1),
         out.corners ++ (held rows cols m).map (fun e => e.1.2),
         out.keypoints ++ (held rows cols m).map (fun e => e.2),
         out.points ++ (held rows cols m).map (fun e => boardAt cols size spacing e.1)⟩ := by
  rw [h.data, h.hrows, h.hcols, tableOf, forRows_tab]
  refine (congrArg Except.ok (fold_rows cols size spacing m (fun (acc : Meas K) i r =>
    acc.push ((i / 4 : Nat) : Int) ((i % 4 : Nat) : Int) (r.kx, r.ky) (r.px, r.py, r.pz)) _ _)).trans ?_
  rw [foldl_meas, held_map]
  simp only [List.map_map, heldIdx]
  simp only [Function.comp_def, rowFor, boardAt, Int.toNat_natCast]

omit [Field K] in
theorem held_nil_of_count (h : (List.range (rows * cols * 4)).countP (heldAt m) = 0) :
    held rows cols m = [] := by
  rw [← spec_size, Spec.size] at h
  exact List.length_eq_zero_iff.mp h

theorem Rel.getMeasurements_eq (h : Rel ts rows cols size spacing m extra g) (out : Meas K) :
    getMeasurements g out =
    .ok ⟨out.tagIds ++ (held rows cols m).map (fun e => e.1.1),
         out.corners ++ (held rows cols m).map (fun e => e.1.2),
         out.keypoints ++ (held rows cols m).map (fun e => e.2),
         out.points ++ (held rows cols m).map (fun e => boardAt cols size spacing e.1)⟩ := by
  rw [getMeasurements]
  split_ifs with hd
  · have h0 : ¬ (0 < g.nbDetections) := by
      have := h.det; rw [hd] at this; simpa using this.symm
    have : (List.range (rows * cols * 4)).countP (heldAt m) = 0 := by
      have := h.nb; omega
    simp [held_nil_of_count this]
  · exact h.toCore.meas_loop out

theorem Core.keypoints_eq (h : Core ts rows cols size spacing m extra g) :
    keypoints g = .ok ((held rows cols m).map (fun e => e.2)) := by
  rw [keypoints, h.data, h.hrows, h.hcols, tableOf, forRows_tab]
  refine (congrArg Except.ok (fold_rows cols size spacing m
    (fun (acc : List (K × K)) _ r => acc ++ [(r.kx, r.ky)]) _ _)).trans ?_
  rw [foldl_append_map, held_map]
  simp [heldIdx, Function.comp_def, rowFor]

theorem Core.objectPoints_eq (h : Core ts rows cols size spacing m extra g) :
    objectPoints g = .ok ((held rows cols m).map (fun e => boardAt cols size spacing e.1)) := by
  rw [objectPoints, h.data, h.hrows, h.hcols, tableOf, forRows_tab]
  refine (congrArg Except.ok (fold_rows cols size spacing m
    (fun (acc : List (K × K × K)) _ r => acc ++ [(r.px, r.py, r.pz)]) _ _)).trans ?_
  rw [foldl_append_map, held_map]
  simp only [heldIdx, List.map_map, Function.comp_def, rowFor, boardAt, Int.toNat_natCast,
    List.nil_append]

theorem foldl_setInsert {α : Type} (l : List α) (v : α → Int) : ∀ acc : List Int,
    acc.Pairwise (· < ·) →
    (l.foldl (fun acc a => setInsert (v a) acc) acc).Pairwise (· < ·) ∧
    ∀ x, x ∈ l.foldl (fun acc a => setInsert (v a) acc) acc ↔ x ∈ acc ∨ ∃ a ∈ l, v a = x := by
  induction l with
  | nil => intro acc h; simpa using h
  | cons a l ih =>
    intro acc h
    obtain ⟨h1, h2⟩ := ih _ (setInsert_sorted (a := v a) h)
    refine ⟨h1, fun x => ?_⟩
    rw [List.foldl_cons, h2, mem_setInsert]
    simp only [List.mem_cons, exists_eq_or_imp]
    constructor
    · rintro ((h | h) | h) <;> simp_all
    · rintro (h | h | h) <;> simp_all

theorem Core.tagIds_eq (h : Core ts rows cols size spacing m extra g) :
    ∃ l, tagIds g = .ok l ∧ l.Pairwise (· < ·) ∧
      ∀ t, t ∈ l ↔ ∃ e ∈ held rows cols m, e.1.1 = t := by
  have key := fold_rows cols size spacing m
    (fun (acc : List Int) i _ => setInsert ((i / 4 : Nat) : Int) acc)
    (List.range (rows * cols * 4)) []
  have hl := foldl_setInsert (heldIdx (rows * cols * 4) m)
    (fun p => ((p.1 / 4 : Nat) : Int)) [] (by simp)
  refine ⟨_, ?_, hl.1, fun t => ?_⟩
  · rw [tagIds, h.data, h.hrows, h.hcols, tableOf, forRows_tab]
    simp only [flag_ne_zero]
    rw [key]; rfl
  · rw [hl.2, held_map]
    simp only [List.not_mem_nil, false_or, List.mem_map]
    constructor
    · rintro ⟨p, hp, rfl⟩; exact ⟨_, ⟨p, hp, rfl⟩, rfl⟩
    · rintro ⟨e, ⟨p, hp, rfl⟩, rfl⟩; exact ⟨p, hp, rfl⟩

omit [Field K] in
theorem mem_held (rows cols : Nat) (m : CMap K) (t c : Int) (kp : K × K) :
    ((t, c), kp) ∈ held rows cols m ↔ Valid rows cols t c ∧ m t c = some kp := by
  rw [held, List.mem_filterMap]
  constructor
  · rintro ⟨⟨t', c'⟩, htc, he⟩
    rw [mem_allCorners] at htc
    simp only [Option.map_eq_some_iff, Prod.mk.injEq] at he
    obtain ⟨kp', h1, ⟨rfl, rfl⟩, rfl⟩ := he
    exact ⟨htc, h1⟩
  · rintro ⟨hv, hm⟩
    exact ⟨(t, c), (mem_allCorners _ _ _ _).mpr hv, by simp [hm]⟩

omit [Field K] in
/-- Held corners are strictly increasing in (tag, corner). -/
theorem held_sorted (rows cols : Nat) (m : CMap K) :
    (held rows cols m).Pairwise
      (fun a b => a.1.1 < b.1.1 ∨ (a.1.1 = b.1.1 ∧ a.1.2 < b.1.2)) := by
  rw [held_map, List.pairwise_map, heldIdx]
  have hr : (List.range (rows * cols * 4)).Pairwise (· < ·) := List.pairwise_lt_range
  rw [List.pairwise_filterMap]
  refine hr.imp ?_
  intro a b hab p hp q hq
  simp only [Option.map_eq_some_iff] at hp hq
  obtain ⟨_, _, rfl⟩ := hp
  obtain ⟨_, _, rfl⟩ := hq
  simp only
  omega

theorem Rel.fully_eq (h : Core ts rows cols size spacing m extra g) :
    fullyObservable g = .ok (decide (Spec.size rows cols m + extra = rows * cols * 4)) := by
  rw [fullyObservable, if_pos h.hinit, h.nb, h.hrows, h.hcols, spec_size]
  congr 1
  rw [Bool.eq_iff_iff]
  simp
  omega

end Yac.AprilGrid
