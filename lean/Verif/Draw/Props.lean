import Verif.Draw.Model

/-!
# C149: the drawing helpers mark what they are given
-/

namespace Yac.Draw
open Yac.AprilGrid Yac.AprilGrid.Spec Yac.Text

variable {K : Type}

/-- The specification: the indices of the points that were tracked. -/
def tracked (status : List Nat) : List Nat := (List.range status.length).filter fun i => status.getD i 0 ≠ 0

/-- The three marks for a pair of points. -/
def pairMarks (r : Int) (a b : K × K) : List (Mark K) := [.circle a r, .circle b r, .line a b]

theorem at_ok {α : Type} {v : List α} {i : Nat} (h : i < v.length) : at' v i = .ok v[i] := by
  unfold at'; rw [List.getElem?_eq_getElem h]

theorem at_bad {α : Type} {v : List α} {i : Nat} (h : v.length ≤ i) : at' v i = .error .oob := by
  unfold at'; rw [List.getElem?_eq_none h]

/-- The tracked indices, counted from `i`. -/
def trackedFrom (i : Nat) (status : List Nat) : List Nat :=
  match status with
  | [] => []
  | s :: l => if s = 0 then trackedFrom (i + 1) l else i :: trackedFrom (i + 1) l

theorem trackedFrom_eq (status : List Nat) : ∀ i, trackedFrom i status = (tracked status).map (i + ·) := by
  induction status with
  | nil => intro i; rfl
  | cons s l ih =>
    intro i
    have h : tracked (s :: l) = (if s = 0 then [] else [0]) ++ (tracked l).map (1 + ·) := by
      unfold tracked
      rw [List.length_cons, List.range_succ_eq_map, List.filter_cons, List.filter_map]
      have e : ((fun i => decide ((s :: l).getD i 0 ≠ 0)) ∘ Nat.succ) = fun i => decide (l.getD i 0 ≠ 0) := by
        funext i; simp
      have e2 : Nat.succ = (1 + ·) := by funext n; omega
      rw [e, e2]
      by_cases hs : s = 0 <;> simp [hs]
    rw [trackedFrom, ih, h]
    by_cases hs : s = 0
    · rw [if_pos hs, if_pos hs, List.nil_append, List.map_map]
      apply List.map_congr_left; intro n _; simp only [Function.comp]; omega
    · rw [if_neg hs, if_neg hs, List.singleton_append, List.map_cons, List.map_map]
      congr 1
      apply List.map_congr_left; intro n _; simp only [Function.comp]; omega

theorem getD_ok {α : Type} {v : List α} {i : Nat} (h : i < v.length) (d : α) : v.getD i d = v[i] := by
  rw [List.getD, List.getElem?_eq_getElem h]; rfl

theorem tracksFrom_spec (d : K × K) (p0 p1 : List (K × K)) (status : List Nat) : ∀ i,
    ((∀ j ∈ trackedFrom i status, j < p0.length ∧ j < p1.length) → tracksFrom p0 p1 i status =
      .ok ((trackedFrom i status).flatMap fun j => pairMarks 1 (p0.getD j d) (p1.getD j d))) ∧
    ((∃ j ∈ trackedFrom i status, p0.length ≤ j ∨ p1.length ≤ j) → tracksFrom p0 p1 i status = .error .oob) := by
  induction status with
  | nil => intro i; exact ⟨fun _ => rfl, by simp [trackedFrom]⟩
  | cons s l ih =>
    intro i
    rw [tracksFrom, trackedFrom]
    by_cases hs : s = 0
    · rw [if_pos hs, if_pos hs]; exact ih (i + 1)
    · rw [if_neg hs, if_neg hs]
      refine ⟨fun h => ?_, fun h => ?_⟩
      · obtain ⟨h0, h1⟩ := h i (by simp)
        rw [at_ok h0, at_ok h1, (ih (i + 1)).1 fun j hj => h j (by simp [hj]), List.flatMap_cons, getD_ok h0, getD_ok h1]
        rfl
      · by_cases h0 : i < p0.length
        · by_cases h1 : i < p1.length
          · obtain ⟨j, hj, hb⟩ := h
            rcases List.mem_cons.mp hj with rfl | hj
            · exfalso; omega
            · rw [at_ok h0, at_ok h1, (ih (i + 1)).2 ⟨j, hj, hb⟩]
          · rw [at_ok h0, at_bad (by omega)]
        · rw [at_bad (by omega)]

/-- **C149** The tracks: for each tracked point, in order, its old and its new place and the line between them, and nothing
else. -/
theorem C149_tracks (d : K × K) (p0 p1 : List (K × K)) (status : List Nat)
    (h0 : ∀ i ∈ tracked status, i < p0.length ∧ i < p1.length) :
    drawTracks p0 p1 status = .ok ((tracked status).flatMap fun i => pairMarks 1 (p0.getD i d) (p1.getD i d)) := by
  have ht : trackedFrom 0 status = tracked status := by rw [trackedFrom_eq]; simp
  unfold drawTracks
  rw [(tracksFrom_spec d p0 p1 status 0).1 (by rw [ht]; exact h0), ht]

/-- C149 witness. -/
example : drawTracks [((1 : ℚ), 2), (3, 4), (5, 6)] [(1, 1), (2, 2), (3, 3)] [1, 0, 7] =
    .ok [.circle (1, 2) 1, .circle (1, 1) 1, .line (1, 2) (1, 1), .circle (5, 6) 1, .circle (3, 3) 1, .line (5, 6) (3, 3)] := by
  decide +kernel

variable [Field K]

/-- **C149** The full claim, for every list of flags, fails: a flag for a point that is not in both lists is read outside. -/
theorem C149_tracks_refuted (p0 p1 : List (K × K)) (status : List Nat) {i : Nat} (hi : i ∈ tracked status)
    (h : p0.length ≤ i ∨ p1.length ≤ i) : drawTracks p0 p1 status = .error .oob := by
  have ht : trackedFrom 0 status = tracked status := by rw [trackedFrom_eq]; simp
  unfold drawTracks
  exact (tracksFrom_spec 0 p0 p1 status 0).2 ⟨i, by rw [ht]; exact hi, h⟩

/-- C149 witness. -/
example : 1 ∈ tracked [0, 1] ∧ [((1 : ℚ), (2 : ℚ))].length ≤ 1 := by decide


theorem matchesFrom_eq (rows : Nat) (k0 k1 : List (K × K)) (status : List Nat) : ∀ i,
    matchesFrom rows k0 k1 i status = drawPairs rows k0 k1 ((trackedFrom i status).map fun j => (j, j)) := by
  induction status with
  | nil => intro i; rfl
  | cons s l ih =>
    intro i
    rw [matchesFrom, trackedFrom]
    by_cases hs : s = 0
    · rw [if_neg (by simp [hs]), if_pos hs, ih]
    · rw [if_pos hs, if_neg hs, List.map_cons, drawPairs, ih]

theorem drawPairs_spec (rows : Nat) (k0 k1 : List (K × K)) (l : List (Nat × Nat)) :
    ((∀ e ∈ l, e.1 < k0.length ∧ e.2 < k1.length) → drawPairs rows k0 k1 l =
      .ok (l.flatMap fun e => pairMarks 2 (k0.getD e.1 0) ((k1.getD e.2 0).1, (k1.getD e.2 0).2 + rows))) ∧
    ((∃ e ∈ l, k0.length ≤ e.1 ∨ k1.length ≤ e.2) → drawPairs rows k0 k1 l = .error .oob) := by
  induction l with
  | nil => exact ⟨fun _ => rfl, by simp⟩
  | cons e l ih =>
    obtain ⟨i, j⟩ := e
    refine ⟨fun h => ?_, fun h => ?_⟩
    · obtain ⟨h0, h1⟩ := h (i, j) (by simp)
      rw [drawPairs, at_ok h0, at_ok h1, ih.1 fun e he => h e (by simp [he])]
      simp only [List.flatMap_cons]
      rw [getD_ok h0, getD_ok h1]
      rfl
    · rw [drawPairs]
      by_cases h0 : i < k0.length
      · by_cases h1 : j < k1.length
        · obtain ⟨e, he, hb⟩ := h
          rcases List.mem_cons.mp he with rfl | he
          · exfalso; simp only at hb; omega
          · rw [at_ok h0, at_ok h1, ih.2 ⟨e, he, hb⟩]
        · rw [at_ok h0, at_bad (by omega)]
      · rw [at_bad (by omega)]

/-- **C149** The matches: the two pictures stand one above the other; for each match its two points and the line between them, that
of the second picture moved down by the height of the first. -/
theorem C149_matches (rows0 rows1 cols : Nat) (k0 k1 : List (K × K)) (status : List Nat)
    (h : ∀ i ∈ tracked status, i < k0.length ∧ i < k1.length) :
    drawMatches rows0 cols rows1 cols k0 k1 status =
      .ok (rows0 + rows1, (tracked status).flatMap fun i =>
        pairMarks 2 (k0.getD i 0) ((k1.getD i 0).1, (k1.getD i 0).2 + rows0)) := by
  have ht : trackedFrom 0 status = tracked status := by rw [trackedFrom_eq]; simp
  unfold drawMatches
  rw [if_neg (by simp), matchesFrom_eq, ht, (drawPairs_spec rows0 k0 k1 _).1]
  · simp only [List.flatMap_map]
  · intro e he
    obtain ⟨i, hi, rfl⟩ := List.mem_map.mp he
    exact h i hi

/-- C149 witness. -/
example : drawMatches 480 640 480 640 [((1 : ℚ), 2)] [(3, 4)] [1] =
    .ok (960, [.circle (1, 2) 2, .circle (3, 484) 2, .line (1, 2) (3, 484)]) := by decide +kernel

/-- **C149** The matches given by index. -/
theorem C149_pairs (rows : Nat) (k0 k1 : List (K × K)) (l : List (Nat × Nat)) (h : ∀ e ∈ l, e.1 < k0.length ∧ e.2 < k1.length) :
    drawPairs rows k0 k1 l =
      .ok (l.flatMap fun e => pairMarks 2 (k0.getD e.1 0) ((k1.getD e.2 0).1, (k1.getD e.2 0).2 + rows)) :=
  (drawPairs_spec rows k0 k1 l).1 h

/-- **C149** Matches with an index outside the keypoints, or pictures of different widths. -/
theorem C149_matches_refuted (rows0 rows1 cols0 cols1 : Nat) (k0 k1 : List (K × K)) :
    (∀ l : List (Nat × Nat), (∃ e ∈ l, k0.length ≤ e.1 ∨ k1.length ≤ e.2) → drawPairs rows0 k0 k1 l = .error .oob) ∧
    (∀ status, cols0 ≠ cols1 → drawMatches rows0 cols0 rows1 cols1 k0 k1 status = .error .exn) ∧
    (∀ status i, i ∈ tracked status → k0.length ≤ i ∨ k1.length ≤ i →
      drawMatches rows0 cols0 rows1 cols0 k0 k1 status = .error .oob) := by
  refine ⟨fun l => (drawPairs_spec rows0 k0 k1 l).2, fun status hc => ?_, fun status i hi hb => ?_⟩
  · unfold drawMatches; rw [if_pos hc]
  · have ht : trackedFrom 0 status = tracked status := by rw [trackedFrom_eq]; simp
    unfold drawMatches
    rw [if_neg (by simp), matchesFrom_eq, ht, (drawPairs_spec rows0 k0 k1 _).2]
    exact ⟨(i, i), List.mem_map.mpr ⟨i, hi, rfl⟩, hb⟩

omit [Field K] in
theorem labels_spec (r : Int) : ∀ (h : List ((Int × Int) × (K × K))),
    labels r (h.map fun e => e.1.1) (h.map fun e => e.2) =
      .ok (h.flatMap fun e => [.circle e.2 r, .text (fmtLd e.1.1) e.2])
  | [] => rfl
  | e :: h => by
    rw [List.map_cons, List.map_cons, labels, labels_spec r h]
    rfl

/-- **C149** A grid, whatever its history of additions and removals, is drawn with one circle and one label at each corner it
holds, the label being the number of the tag. -/
theorem C149_grid (ts : Int) (rows cols : Nat) (size spacing : K) (ops : List (Op K))
    (hv : ∀ op ∈ ops, OpValid rows cols op) (g : Grid K) (hg : run (new ts rows cols size spacing) ops = .ok g) (r : Int) :
    drawGrid g r = .ok ((held rows cols (Spec.run ops)).flatMap fun e => [.circle e.2 r, .text (fmtLd e.1.1) e.2]) := by
  have h := (C03_measurements ts rows cols size spacing ops hv g hg Meas.empty).1
  unfold drawGrid
  rw [h]
  exact labels_spec r _

/-- C149 witness: a corner added, moved, and another removed again. -/
example : ∃ g, run (new 5 2 3 (1 : ℚ) 0) [.add 4 1 (7, 8), .add 2 3 (1, 1), .remove 2 3, .add 4 1 (9, 8)] = .ok g ∧
    drawGrid g 3 = .ok [.circle (9, 8) 3, .text "4".toList (9, 8)] := ⟨_, rfl, by decide +kernel⟩

end Yac.Draw
