import Verif.AprilGrid.Detect
import Verif.AprilGrid.Props
import Mathlib.Tactic.Linarith
import Mathlib.Data.List.Sort
import Mathlib.Data.Fin.VecNotation
import Mathlib.Tactic.FinCases

/-!
# C59: only well-formed tag detections enter a grid
-/

namespace Yac.AprilGrid
open Spec

/-! ### Grids made by adding corners -/

/-- The calls made for a list of corners. -/
def adds (ms : List Corner) : List (Op ℚ) := ms.map fun m => .add m.1 m.2.1 m.2.2

theorem addAll_run (g : Grid ℚ) (ms : List Corner) : addAll g ms = run g (adds ms) := by
  unfold addAll run adds
  rw [List.foldlM_map]
  rfl

/-- A corner is held if it was added, with one of the keypoints it was added with. -/
theorem adds_held (ms : List Corner) (t c : Int) :
    (∀ kp, Spec.run (adds ms) t c = some kp → (t, c, kp) ∈ ms) ∧
    ((∃ kp, (t, c, kp) ∈ ms) → (Spec.run (adds ms) t c).isSome) := by
  induction ms using List.reverseRecOn with
  | nil => exact ⟨fun kp h => (nomatch h), fun ⟨kp, h⟩ => (nomatch h)⟩
  | append_singleton ms m ih =>
    obtain ⟨t', c', kp'⟩ := m
    have e : Spec.run (adds (ms ++ [(t', c', kp')])) = Spec.step (Spec.run (adds ms)) (.add t' c' kp') := by
      simp [adds, Spec.run]
    rw [e]
    simp only [Spec.step]
    by_cases h : t = t' ∧ c = c'
    · rw [if_pos h]
      obtain ⟨rfl, rfl⟩ := h
      exact ⟨fun kp hk => by injection hk with hk; subst hk; simp, fun _ => rfl⟩
    · rw [if_neg h]
      refine ⟨fun kp hk => List.mem_append_left _ (ih.1 kp hk), fun ⟨kp, hk⟩ => ih.2 ⟨kp, ?_⟩⟩
      rw [List.mem_append, List.mem_singleton] at hk
      rcases hk with hk | hk
      · exact hk
      · injection hk with h1 h2
        injection h2 with h2 _
        exact absurd ⟨h1, h2⟩ h

/-- No corner is added twice. -/
def Fresh (ms : List Corner) : Prop := (ms.map fun m => (m.1, m.2.1)).Nodup

theorem adds_fresh (ms : List Corner) (h : Fresh ms) :
    overwrites (adds ms) = 0 ∧ ∀ t c kp, (t, c, kp) ∈ ms → Spec.run (adds ms) t c = some kp := by
  induction ms using List.reverseRecOn with
  | nil => exact ⟨rfl, fun t c kp h => by cases h⟩
  | append_singleton ms m ih =>
    obtain ⟨t', c', kp'⟩ := m
    unfold Fresh at h
    rw [List.map_append, List.nodup_append] at h
    obtain ⟨h1, -, h3⟩ := h
    obtain ⟨i1, i2⟩ := ih h1
    have hn : ∀ kp, (t', c', kp) ∉ ms := by
      intro kp hk
      exact h3 (t', c') (List.mem_map.mpr ⟨_, hk, rfl⟩) (t', c') (by simp) rfl
    have hns : ¬ (Spec.run (adds ms) t' c').isSome := by
      intro hs
      obtain ⟨kp, hk⟩ := Option.isSome_iff_exists.mp hs
      exact hn kp ((adds_held ms t' c').1 kp hk)
    have e : Spec.run (adds (ms ++ [(t', c', kp')])) = Spec.step (Spec.run (adds ms)) (.add t' c' kp') := by
      simp [adds, Spec.run]
    have hov : overwrites (adds (ms ++ [(t', c', kp')])) =
        (trackStep (Spec.run (adds ms), overwrites (adds ms)) (.add t' c' kp')).2 := by
      rw [overwrites, adds, List.map_append, List.foldl_append]
      show (trackStep ((adds ms).foldl trackStep (none_, 0)) _).2 = _
      rw [← track_fst (adds ms)]
      rfl
    constructor
    · rw [hov]
      simp only [trackStep, if_neg hns, i1]
    · intro t c kp hk
      rw [e]
      simp only [Spec.step]
      rw [List.mem_append, List.mem_singleton] at hk
      rcases hk with hk | hk
      · rw [if_neg (by rintro ⟨rfl, rfl⟩; exact hn kp hk)]
        exact i2 t c kp hk
      · injection hk with a b
        injection b with b d
        rw [if_pos ⟨a, b⟩, d]

/-! ### Specification -/

/-- The tag lies inside the border margin of four pixels. -/
def Inside (im : Image) (d : Tag) : Prop :=
  ∀ i, 4 ≤ (d.p i).1 ∧ (d.p i).1 ≤ im.cols - 4 ∧ 4 ≤ (d.p i).2 ∧ (d.p i).2 ≤ im.rows - 4

/-- A detection that belongs to the board. -/
def Proper (b : Board) (im : Image) (d : Tag) : Prop :=
  d.good = true ∧ d.id < (b.rows * b.cols : Nat) ∧ Inside im d

/-- The refinement moved the corner by at most `sqrt 1.5` pixels. -/
def Close (x y : ℚ × ℚ) : Prop := (x.1 - y.1) ^ 2 + (x.2 - y.2) ^ 2 ≤ 3 / 2

instance (x y : ℚ × ℚ) : Decidable (Close x y) := by unfold Close; infer_instance

/-- The detector decodes nonnegative ids. -/
def Decoded (tags : List Tag) : Prop := ∀ d ∈ tags, d.good = true → 0 ≤ d.id

/-- What is asked of `std::sort`: it keeps the detections and orders their ids. -/
def Sorts (srt : List Tag → List Tag) : Prop :=
  ∀ l, (srt l).Perm l ∧ (srt l).Pairwise (fun a b => a.id ≤ b.id)

theorem nearBorder_iff (im : Image) (d : Tag) : nearBorder im d = false ↔ Inside im d := by
  unfold nearBorder Inside
  rw [List.any_eq_false]
  simp only [List.mem_finRange, forall_const, Bool.or_eq_true, decide_eq_true_eq, not_or, not_lt, gt_iff_lt, and_assoc]

theorem movedFar_iff (x y : ℚ × ℚ) : movedFar x y = false ↔ Close x y := by
  unfold movedFar Close
  rw [decide_eq_false_iff_not, not_lt, pow_two, pow_two]

theorem mem_tagCorners (b : Board) (im : Image) (sub : Tag → Fin 4 → ℚ × ℚ) (d : Tag) (m : Corner) :
    m ∈ tagCorners b.rows b.cols im sub d ↔
      Proper b im d ∧ ∃ i : Fin 4, Close (d.p i) (sub d i) ∧ m = (d.id, (i.val : Int), sub d i) := by
  unfold tagCorners Proper
  by_cases h1 : d.good = false
  · rw [if_pos h1]; simp [h1]
  by_cases h2 : d.id ≥ (b.rows * b.cols : Nat)
  · rw [if_neg h1, if_pos h2]
    simp only [List.not_mem_nil, false_iff]
    rintro ⟨⟨-, h, -⟩, -⟩
    omega
  by_cases h3 : nearBorder im d = true
  · rw [if_neg h1, if_neg h2, if_pos h3]
    simp only [List.not_mem_nil, false_iff]
    rintro ⟨⟨-, -, h⟩, -⟩
    rw [(nearBorder_iff im d).mpr h] at h3
    cases h3
  rw [if_neg h1, if_neg h2, if_neg h3, List.mem_filterMap]
  have hp : d.good = true ∧ d.id < ((b.rows * b.cols : Nat) : Int) ∧ Inside im d :=
    ⟨by simpa using h1, by omega, (nearBorder_iff im d).mp (by simpa using h3)⟩
  constructor
  · rintro ⟨i, -, hi⟩
    by_cases hf : movedFar (d.p i) (sub d i) = true
    · rw [if_pos hf] at hi; cases hi
    · rw [if_neg hf] at hi
      injection hi with hi
      exact ⟨hp, i, (movedFar_iff _ _).mp (by simpa using hf), hi.symm⟩
  · rintro ⟨-, i, hi, rfl⟩
    exact ⟨i, List.mem_finRange i, by rw [(movedFar_iff _ _).mpr hi]; rfl⟩

theorem mem_tagCornersAll (b : Board) (im : Image) (sub : Tag → Fin 4 → ℚ × ℚ) (d : Tag) (m : Corner) :
    m ∈ tagCornersAll b.rows b.cols im sub d ↔
      (Proper b im d ∧ ∀ i, Close (d.p i) (sub d i)) ∧ ∃ i : Fin 4, m = (d.id, (i.val : Int), sub d i) := by
  unfold tagCornersAll Proper
  by_cases h1 : d.good = false
  · rw [if_pos h1]; simp [h1]
  by_cases h2 : d.id ≥ (b.rows * b.cols : Nat)
  · rw [if_neg h1, if_pos h2]
    simp only [List.not_mem_nil, false_iff]
    rintro ⟨⟨⟨-, h, -⟩, -⟩, -⟩
    omega
  by_cases h3 : nearBorder im d = true
  · rw [if_neg h1, if_neg h2, if_pos h3]
    simp only [List.not_mem_nil, false_iff]
    rintro ⟨⟨⟨-, -, h⟩, -⟩, -⟩
    rw [(nearBorder_iff im d).mpr h] at h3
    cases h3
  have hp : d.good = true ∧ d.id < ((b.rows * b.cols : Nat) : Int) ∧ Inside im d :=
    ⟨by simpa using h1, by omega, (nearBorder_iff im d).mp (by simpa using h3)⟩
  by_cases h4 : ((List.finRange 4).any fun i => movedFar (d.p i) (sub d i)) = true
  · rw [if_neg h1, if_neg h2, if_neg h3, if_pos h4]
    simp only [List.not_mem_nil, false_iff]
    rintro ⟨⟨-, h⟩, -⟩
    rw [List.any_eq_true] at h4
    obtain ⟨i, -, hi⟩ := h4
    rw [(movedFar_iff _ _).mpr (h i)] at hi
    cases hi
  rw [if_neg h1, if_neg h2, if_neg h3, if_neg h4, List.mem_map]
  have hc : ∀ i, Close (d.p i) (sub d i) := by
    intro i
    rw [Bool.not_eq_true, List.any_eq_false] at h4
    exact (movedFar_iff _ _).mp (by simpa using h4 i (List.mem_finRange i))
  constructor
  · rintro ⟨i, -, hi⟩
    exact ⟨⟨hp, hc⟩, i, hi.symm⟩
  · rintro ⟨-, i, hi⟩
    exact ⟨i, List.mem_finRange i, hi.symm⟩

/-! ### Grids from filtered corners -/

/-- Facts about a grid made from valid corners. -/
theorem made (b : Board) (ts : Int) (ms : List Corner) (hv : ∀ m ∈ ms, Valid b.rows b.cols m.1 m.2.1) :
    ∃ g, addAll (new ts b.rows b.cols b.size b.spacing) ms = .ok g ∧
      g.timestamp = ts ∧ g.tagRows = b.rows ∧ g.tagCols = b.cols ∧ g.tagSize = b.size ∧ g.tagSpacing = b.spacing ∧
      (∀ t c, Valid b.rows b.cols t c → (has g t c = .ok true ↔ ∃ kp, (t, c, kp) ∈ ms) ∧
        (∀ kp, keypoint g t c = .ok kp → (t, c, kp) ∈ ms) ∧ ((∃ kp, (t, c, kp) ∈ ms) → ∃ kp, keypoint g t c = .ok kp)) ∧
      (g.detected = true ↔ ms ≠ []) ∧
      (Fresh ms → g.nbDetections = ms.length ∧ ∀ t c kp, (t, c, kp) ∈ ms → keypoint g t c = .ok kp) := by
  have hop : ∀ op ∈ adds ms, OpValid b.rows b.cols op := by
    intro op ho
    obtain ⟨m, hm, rfl⟩ := List.mem_map.mp ho
    exact hv m hm
  obtain ⟨g, hg, hmap⟩ := C01_map_refinement ts b.rows b.cols b.size b.spacing (adds ms) hop
  obtain ⟨f1, f2, f3, f4, f5, f6, -⟩ := C01_frame ts b.rows b.cols b.size b.spacing (adds ms) hop g hg
  obtain ⟨n1, n2, -⟩ := C02_counter_exact ts b.rows b.cols b.size b.spacing (adds ms) hop g hg
  have hcount : g.nbDetections = ms.length := by
    -- every call adds one
    have : ∀ (ms : List Corner) (g0 g : Grid ℚ), addAll g0 ms = .ok g → g.nbDetections = g0.nbDetections + ms.length := by
      intro ms
      induction ms with
      | nil => intro g0 g h; injection h with h; subst h; simp
      | cons m ms ih =>
        intro g0 g h
        unfold addAll at h
        rw [List.foldlM_cons] at h
        cases ha : add g0 m.1 m.2.1 m.2.2 with
        | error e => rw [ha] at h; cases h
        | ok g1 =>
          rw [ha] at h
          have h1 := ih g1 g h
          have h2 : g1.nbDetections = g0.nbDetections + 1 := by
            unfold add at ha
            cases hp : objectPoint g0 m.1 m.2.1 with
            | error e => rw [hp] at ha; cases ha
            | ok p =>
              rw [hp] at ha
              simp only [ok_bind] at ha
              cases hw : writeRow g0.data (m.1 * 4 + m.2.1) ⟨1, m.2.2.1, m.2.2.2, p.1, p.2.1, p.2.2⟩ with
              | error e => rw [hw] at ha; cases ha
              | ok d =>
                rw [hw] at ha
                injection ha with ha
                subst ha
                rfl
          rw [h1, h2, List.length_cons]
          push_cast
          ring
    have := this ms _ g ((addAll_run _ _).trans hg)
    rw [this]
    simp [new]
  refine ⟨g, (addAll_run _ _).trans hg, f2, f3, f4, f5, f6, ?_, ?_, ?_⟩
  · intro t c hvt
    obtain ⟨e1, e2⟩ := hmap t c hvt
    obtain ⟨a1, a2⟩ := adds_held ms t c
    rw [e1, e2]
    cases hs : Spec.run (adds ms) t c with
    | none =>
      rw [hs] at a1 a2
      refine ⟨⟨fun h => by simp at h, fun h => by simpa using a2 h⟩, fun kp h => (nomatch h), fun h => absurd (a2 h) (by simp)⟩
    | some kp =>
      rw [hs] at a1
      refine ⟨⟨fun _ => ⟨kp, a1 kp rfl⟩, fun _ => rfl⟩, fun kp' h => ?_, fun _ => ⟨kp, rfl⟩⟩
      injection h with h
      subst h
      exact a1 kp rfl
  · rw [n2, hcount, decide_eq_true_eq]
    rw [← List.length_pos_iff]
    exact_mod_cast Iff.rfl
  · intro hf
    refine ⟨hcount, fun t c kp hm => ?_⟩
    have hvt := hv _ hm
    obtain ⟨-, e2⟩ := hmap t c hvt
    rw [e2, (adds_fresh ms hf).2 t c kp hm]

/-! ### One camera -/

/-- How many corners of the detections pass. -/
noncomputable def passing (b : Board) (im : Image) (sub : Tag → Fin 4 → ℚ × ℚ) (tags : List Tag) : Nat :=
  open Classical in
  (tags.map fun d => if Proper b im d then (List.finRange 4).countP (fun i => decide (Close (d.p i) (sub d i))) else 0).sum

/-- How many corners pass where a tag with one bad corner is dropped. -/
noncomputable def passingAll (b : Board) (im : Image) (sub : Tag → Fin 4 → ℚ × ℚ) (tags : List Tag) : Nat :=
  open Classical in
  (tags.map fun d => if Proper b im d ∧ ∀ i, Close (d.p i) (sub d i) then 4 else 0).sum

theorem length_tagCorners (b : Board) (im : Image) (sub : Tag → Fin 4 → ℚ × ℚ) (d : Tag) [Decidable (Proper b im d)] :
    (tagCorners b.rows b.cols im sub d).length =
      if Proper b im d then (List.finRange 4).countP (fun i => decide (Close (d.p i) (sub d i))) else 0 := by
  by_cases h : Proper b im d
  · rw [if_pos h]
    unfold tagCorners
    obtain ⟨h1, h2, h3⟩ := h
    rw [if_neg (by rw [h1]; simp), if_neg (by omega), if_neg (by rw [(nearBorder_iff im d).mpr h3]; simp)]
    generalize List.finRange 4 = l
    induction l with
    | nil => rfl
    | cons i l ih =>
      rw [List.countP_cons, ← ih, List.filterMap_cons]
      by_cases hc : Close (d.p i) (sub d i)
      · simp [(movedFar_iff _ _).mpr hc, hc]
      · have : movedFar (d.p i) (sub d i) = true := by
          by_contra hh
          exact hc ((movedFar_iff _ _).mp (by simpa using hh))
        simp [this, hc]
  · rw [if_neg h, List.length_eq_zero_iff, List.eq_nil_iff_forall_not_mem]
    intro m hm
    exact h ((mem_tagCorners b im sub d m).mp hm).1

theorem length_tagCornersAll (b : Board) (im : Image) (sub : Tag → Fin 4 → ℚ × ℚ) (d : Tag)
    [Decidable (Proper b im d ∧ ∀ i, Close (d.p i) (sub d i))] :
    (tagCornersAll b.rows b.cols im sub d).length = if Proper b im d ∧ ∀ i, Close (d.p i) (sub d i) then 4 else 0 := by
  by_cases h : Proper b im d ∧ ∀ i, Close (d.p i) (sub d i)
  · rw [if_pos h]
    unfold tagCornersAll
    obtain ⟨⟨h1, h2, h3⟩, h4⟩ := h
    rw [if_neg (by rw [h1]; simp), if_neg (by omega), if_neg (by rw [(nearBorder_iff im d).mpr h3]; simp), if_neg]
    · simp
    · rw [Bool.not_eq_true, List.any_eq_false]
      intro i _
      rw [(movedFar_iff _ _).mpr (h4 i)]
      simp
  · rw [if_neg h, List.length_eq_zero_iff, List.eq_nil_iff_forall_not_mem]
    intro m hm
    exact h ((mem_tagCornersAll b im sub d m).mp hm).1

theorem length_passing (b : Board) (im : Image) (sub : Tag → Fin 4 → ℚ × ℚ) {tags l : List Tag} (h : l.Perm tags) :
    (l.flatMap (tagCorners b.rows b.cols im sub)).length = passing b im sub tags := by
  unfold passing
  rw [List.length_flatMap]
  have : (fun d => (tagCorners b.rows b.cols im sub d).length) = fun d => open Classical in
      if Proper b im d then (List.finRange 4).countP (fun i => decide (Close (d.p i) (sub d i))) else 0 := by
    classical
    funext d
    rw [length_tagCorners]
  rw [this]
  exact (h.map _).sum_eq

theorem length_passingAll (b : Board) (im : Image) (sub : Tag → Fin 4 → ℚ × ℚ) {tags l : List Tag} (h : l.Perm tags) :
    (l.flatMap (tagCornersAll b.rows b.cols im sub)).length = passingAll b im sub tags := by
  unfold passingAll
  rw [List.length_flatMap]
  have : (fun d => (tagCornersAll b.rows b.cols im sub d).length) = fun d => open Classical in
      if Proper b im d ∧ ∀ i, Close (d.p i) (sub d i) then 4 else 0 := by
    classical
    funext d
    rw [length_tagCornersAll]
  rw [this]
  exact (h.map _).sum_eq

/-- Different detections have different ids. -/
def Distinct (tags : List Tag) : Prop := tags.Pairwise fun a b => a.id ≠ b.id

theorem fresh_of (f : Tag → List Corner) (hid : ∀ d m, m ∈ f d → m.1 = d.id)
    (hn : ∀ d, ((f d).map fun m => (m.1, m.2.1)).Nodup) {tags l : List Tag} (h : l.Perm tags) (hd : Distinct tags) :
    Fresh (l.flatMap f) := by
  unfold Fresh
  rw [List.map_flatMap, List.nodup_flatMap]
  refine ⟨fun d _ => hn d, ?_⟩
  have hl : l.Pairwise fun a b => a.id ≠ b.id := h.symm.pairwise hd (fun h => h.symm)
  refine hl.imp ?_
  intro a b hab
  simp only [Function.onFun]
  intro k hk1 hk2
  obtain ⟨m, hm, rfl⟩ := List.mem_map.mp hk1
  obtain ⟨m', hm', he⟩ := List.mem_map.mp hk2
  injection he with he _
  exact hab ((hid a m hm).symm.trans (he.symm.trans (hid b m' hm')))

theorem nodup_tagCorners (b : Board) (im : Image) (sub : Tag → Fin 4 → ℚ × ℚ) (d : Tag) :
    ((tagCorners b.rows b.cols im sub d).map fun m => (m.1, m.2.1)).Nodup := by
  unfold tagCorners
  split_ifs
  · simp
  · simp
  · simp
  · rw [List.map_filterMap]
    apply List.Nodup.filterMap _ (List.nodup_finRange 4)
    intro i j k hi hj
    by_cases h1 : movedFar (d.p i) (sub d i) = true
    · simp [h1] at hi
    by_cases h2 : movedFar (d.p j) (sub d j) = true
    · simp [h2] at hj
    simp only [h1, h2, Bool.false_eq_true, if_false, Option.map_some, Option.mem_def, Option.some.injEq] at hi hj
    rw [← hj] at hi
    injection hi with _ hi
    exact Fin.ext (by exact_mod_cast hi)

theorem nodup_tagCornersAll (b : Board) (im : Image) (sub : Tag → Fin 4 → ℚ × ℚ) (d : Tag) :
    ((tagCornersAll b.rows b.cols im sub d).map fun m => (m.1, m.2.1)).Nodup := by
  unfold tagCornersAll
  split_ifs
  · simp
  · simp
  · simp
  · simp
  · rw [List.map_map]
    refine (List.nodup_finRange 4).map ?_
    intro i j h
    injection h with _ h
    have h' : ((i.val : Int)) = j.val := h
    exact Fin.ext (by exact_mod_cast h')

/-- A corner of a passing detection. -/
def Passes (b : Board) (im : Image) (sub : Tag → Fin 4 → ℚ × ℚ) (d : Tag) (i : Fin 4) : Prop :=
  Proper b im d ∧ Close (d.p i) (sub d i)

/-- A grid without any corner. -/
def Nothing (b : Board) (g : Grid ℚ) : Prop :=
  g.detected = false ∧ g.nbDetections = 0 ∧ ∀ t c, Valid b.rows b.cols t c → has g t c = .ok false

theorem new_nothing (b : Board) (ts : Int) : Nothing b (new ts b.rows b.cols b.size b.spacing) := by
  refine ⟨rfl, rfl, fun t c hv => ?_⟩
  exact C02_not_detected_empty ts b.rows b.cols b.size b.spacing [] (by simp) _ rfl rfl t c hv

/-- C59: what `detect` returns.  Colour images are refused.  Otherwise the grid has the given timestamp and board, and
- nothing else, if fewer than `max(rows, cols) + 1` tags were seen or fewer than four times as many corners pass;
- else exactly the corners of detections that are good, inside the grid, inside the border margin of 4 pixels and were
  moved by at most `sqrt 1.5` by the refinement, with a refined keypoint; one per detection if ids are distinct. -/
theorem C59_detect (b : Board) (srt : List Tag → List Tag) (hsrt : Sorts srt) (sub : Tag → Fin 4 → ℚ × ℚ) (ts : Int)
    (im : Image) (tags : List Tag) (hd : Decoded tags) (him : im.channels = 1) :
    ∃ g, detect b srt sub ts im tags = .ok g ∧ g.timestamp = ts ∧ g.tagRows = b.rows ∧ g.tagCols = b.cols ∧
      g.tagSize = b.size ∧ g.tagSpacing = b.spacing ∧
      ((tags.length < max b.rows b.cols + 1 ∨ passing b im sub tags < 4 * (max b.rows b.cols + 1)) → Nothing b g) ∧
      (max b.rows b.cols + 1 ≤ tags.length → 4 * (max b.rows b.cols + 1) ≤ passing b im sub tags →
        g.detected = true ∧
        (∀ t c, Valid b.rows b.cols t c →
          (has g t c = .ok true ↔ ∃ d ∈ tags, ∃ i : Fin 4, d.id = t ∧ (i.val : Int) = c ∧ Passes b im sub d i) ∧
          ∀ kp, keypoint g t c = .ok kp → ∃ d ∈ tags, ∃ i : Fin 4, d.id = t ∧ (i.val : Int) = c ∧ Passes b im sub d i ∧
            kp = sub d i) ∧
        (Distinct tags → g.nbDetections = passing b im sub tags ∧
          ∀ d ∈ tags, ∀ i : Fin 4, Passes b im sub d i → keypoint g d.id i.val = .ok (sub d i))) := by
  have hp := (hsrt tags).1
  have hlen := length_passing b im sub hp
  have hmem : ∀ m, m ∈ (srt tags).flatMap (tagCorners b.rows b.cols im sub) ↔
      ∃ d ∈ tags, ∃ i : Fin 4, Passes b im sub d i ∧ m = (d.id, (i.val : Int), sub d i) := by
    intro m
    rw [List.mem_flatMap]
    constructor
    · rintro ⟨d, h1, h2⟩
      obtain ⟨h3, i, h4, h5⟩ := (mem_tagCorners b im sub d m).mp h2
      exact ⟨d, hp.mem_iff.mp h1, i, ⟨h3, h4⟩, h5⟩
    · rintro ⟨d, h1, i, h2, h3⟩
      exact ⟨d, hp.mem_iff.mpr h1, (mem_tagCorners b im sub d m).mpr ⟨h2.1, i, h2.2, h3⟩⟩
  have hv : ∀ m ∈ (srt tags).flatMap (tagCorners b.rows b.cols im sub), Valid b.rows b.cols m.1 m.2.1 := by
    intro m hm
    obtain ⟨d, h1, i, h2, rfl⟩ := (hmem m).mp hm
    have := hd d h1 h2.1.1
    have h3 := h2.1.2.1
    refine ⟨by assumption, by exact_mod_cast h3, ?_, ?_⟩ <;> simp
  unfold detect
  simp only
  rw [if_neg (by simp [him])]
  by_cases c1 : tags.length < minTags b
  · rw [if_pos c1]
    refine ⟨_, rfl, rfl, rfl, rfl, rfl, rfl, fun _ => new_nothing b ts, fun h => ?_⟩
    unfold minTags at c1
    omega
  rw [if_neg c1, hlen]
  by_cases c2 : passing b im sub tags < 4 * minTags b
  · rw [if_pos c2]
    refine ⟨_, rfl, rfl, rfl, rfl, rfl, rfl, fun _ => new_nothing b ts, fun _ h => ?_⟩
    unfold minTags at c2
    omega
  rw [if_neg c2]
  obtain ⟨g, e0, e1, e2, e3, e4, e5, e6, e7, e8⟩ := made b ts _ hv
  unfold minTags at c1 c2
  refine ⟨g, e0, e1, e2, e3, e4, e5, fun h => by omega, fun _ _ => ⟨?_, ?_, ?_⟩⟩
  · rw [e7, ← List.length_pos_iff, hlen]
    omega
  · intro t c hvt
    obtain ⟨k1, k2, -⟩ := e6 t c hvt
    constructor
    · rw [k1]
      constructor
      · rintro ⟨kp, hk⟩
        obtain ⟨d, h1, i, h2, h3⟩ := (hmem _).mp hk
        injection h3 with h3 h4
        injection h4 with h4 h5
        exact ⟨d, h1, i, h3.symm, h4.symm, h2⟩
      · rintro ⟨d, h1, i, rfl, rfl, h2⟩
        exact ⟨sub d i, (hmem _).mpr ⟨d, h1, i, h2, rfl⟩⟩
    · intro kp hk
      obtain ⟨d, h1, i, h2, h3⟩ := (hmem _).mp (k2 kp hk)
      injection h3 with h3 h4
      injection h4 with h4 h5
      exact ⟨d, h1, i, h3.symm, h4.symm, h2, h5⟩
  · intro hdist
    obtain ⟨k1, k2⟩ := e8 (fresh_of _ (fun d m hm => by
      obtain ⟨-, i, -, h⟩ := (mem_tagCorners b im sub d m).mp hm
      rw [h]) (nodup_tagCorners b im sub) hp hdist)
    refine ⟨by rw [k1, hlen], fun d h1 i h2 => k2 _ _ _ ((hmem _).mpr ⟨d, h1, i, h2, rfl⟩)⟩

/-- C59: what a thread of the detector for several cameras finds: at least four tags, sixteen corners, and only tags all
of whose corners were moved by at most `sqrt 1.5`. -/
theorem C59_thread (b : Board) (srt : List Tag → List Tag) (hsrt : Sorts srt) (sub : Tag → Fin 4 → ℚ × ℚ) (ts : Int)
    (im : Image) (tags : List Tag) (hd : Decoded tags) (him : im.channels = 1) :
    ∃ g, detectThread b srt sub ts im tags = .ok g ∧ g.timestamp = ts ∧ g.tagRows = b.rows ∧ g.tagCols = b.cols ∧
      g.tagSize = b.size ∧ g.tagSpacing = b.spacing ∧
      (tags.length < 4 ∨ passingAll b im sub tags < 16 → Nothing b g) ∧
      (4 ≤ tags.length → 16 ≤ passingAll b im sub tags →
        g.detected = true ∧
        (∀ t c, Valid b.rows b.cols t c →
          (has g t c = .ok true ↔ ∃ d ∈ tags, d.id = t ∧ ∀ i, Passes b im sub d i) ∧
          ∀ kp, keypoint g t c = .ok kp → ∃ d ∈ tags, ∃ i : Fin 4, d.id = t ∧ (i.val : Int) = c ∧
            (∀ i, Passes b im sub d i) ∧ kp = sub d i) ∧
        (Distinct tags → g.nbDetections = passingAll b im sub tags ∧
          ∀ d ∈ tags, (∀ i, Passes b im sub d i) → ∀ i : Fin 4, keypoint g d.id i.val = .ok (sub d i))) := by
  have hp := (hsrt tags).1
  have hlen := length_passingAll b im sub hp
  have hmem : ∀ m, m ∈ (srt tags).flatMap (tagCornersAll b.rows b.cols im sub) ↔
      ∃ d ∈ tags, ∃ i : Fin 4, (∀ i, Passes b im sub d i) ∧ m = (d.id, (i.val : Int), sub d i) := by
    intro m
    rw [List.mem_flatMap]
    constructor
    · rintro ⟨d, h1, h2⟩
      obtain ⟨⟨h3, h4⟩, i, h5⟩ := (mem_tagCornersAll b im sub d m).mp h2
      exact ⟨d, hp.mem_iff.mp h1, i, fun i => ⟨h3, h4 i⟩, h5⟩
    · rintro ⟨d, h1, i, h2, h3⟩
      exact ⟨d, hp.mem_iff.mpr h1, (mem_tagCornersAll b im sub d m).mpr ⟨⟨(h2 0).1, fun i => (h2 i).2⟩, i, h3⟩⟩
  have hv : ∀ m ∈ (srt tags).flatMap (tagCornersAll b.rows b.cols im sub), Valid b.rows b.cols m.1 m.2.1 := by
    intro m hm
    obtain ⟨d, h1, i, h2, rfl⟩ := (hmem m).mp hm
    have := hd d h1 (h2 0).1.1
    have h3 := (h2 0).1.2.1
    refine ⟨by assumption, by exact_mod_cast h3, ?_, ?_⟩ <;> simp
  unfold detectThread
  simp only
  rw [if_neg (by simp [him])]
  by_cases c1 : tags.length < 4
  · rw [if_pos c1]
    exact ⟨_, rfl, rfl, rfl, rfl, rfl, rfl, fun _ => new_nothing b ts, fun h => by omega⟩
  rw [if_neg c1, hlen]
  by_cases c2 : passingAll b im sub tags < 4 * 4
  · rw [if_pos c2]
    exact ⟨_, rfl, rfl, rfl, rfl, rfl, rfl, fun _ => new_nothing b ts, fun _ h => by omega⟩
  rw [if_neg c2]
  obtain ⟨g, e0, e1, e2, e3, e4, e5, e6, e7, e8⟩ := made b ts _ hv
  refine ⟨g, e0, e1, e2, e3, e4, e5, fun h => by omega, fun _ _ => ⟨?_, ?_, ?_⟩⟩
  · rw [e7, ← List.length_pos_iff, hlen]
    omega
  · intro t c hvt
    obtain ⟨k1, k2, -⟩ := e6 t c hvt
    constructor
    · rw [k1]
      constructor
      · rintro ⟨kp, hk⟩
        obtain ⟨d, h1, i, h2, h3⟩ := (hmem _).mp hk
        injection h3 with h3 h4
        exact ⟨d, h1, h3.symm, h2⟩
      · rintro ⟨d, h1, rfl, h2⟩
        obtain ⟨h3, h4⟩ := hvt.2.2
        obtain ⟨n, rfl⟩ := Int.eq_ofNat_of_zero_le h3
        have hn : n < 4 := by exact_mod_cast h4
        exact ⟨sub d ⟨n, hn⟩, (hmem _).mpr ⟨d, h1, ⟨n, hn⟩, h2, rfl⟩⟩
    · intro kp hk
      obtain ⟨d, h1, i, h2, h3⟩ := (hmem _).mp (k2 kp hk)
      injection h3 with h3 h4
      injection h4 with h4 h5
      exact ⟨d, h1, i, h3.symm, h4.symm, h2, h5⟩
  · intro hdist
    obtain ⟨k1, k2⟩ := e8 (fresh_of _ (fun d m hm => by
      obtain ⟨-, i, h⟩ := (mem_tagCornersAll b im sub d m).mp hm
      rw [h]) (nodup_tagCornersAll b im sub) hp hdist)
    refine ⟨by rw [k1, hlen], fun d h1 h2 i => k2 _ _ _ ((hmem _).mpr ⟨d, h1, i, h2, rfl⟩)⟩

/-- C59: colour images are refused. -/
theorem C59_colour (b : Board) (srt : List Tag → List Tag) (sub : Tag → Fin 4 → ℚ × ℚ) (ts : Int) (im : Image)
    (tags : List Tag) (h : im.channels ≠ 1) :
    detect b srt sub ts im tags = .error .fatal ∧ detectV3 b ts im tags = .error .fatal ∧
    detectThread b srt sub ts im tags = .error .fatal := by
  unfold detect detectV3 detectThread
  simp [h]

/-- C59: a corner that passes lies inside the image. -/
theorem C59_in_image (b : Board) (im : Image) (sub : Tag → Fin 4 → ℚ × ℚ) (d : Tag) (i : Fin 4) (h : Passes b im sub d i) :
    0 < (sub d i).1 ∧ (sub d i).1 < im.cols ∧ 0 < (sub d i).2 ∧ (sub d i).2 < im.rows := by
  obtain ⟨⟨-, -, h1⟩, h2⟩ := h
  obtain ⟨a1, a2, a3, a4⟩ := h1 i
  unfold Close at h2
  have s1 : ((d.p i).1 - (sub d i).1) ^ 2 < 2 ^ 2 := by nlinarith [sq_nonneg ((d.p i).2 - (sub d i).2)]
  have s2 : ((d.p i).2 - (sub d i).2) ^ 2 < 2 ^ 2 := by nlinarith [sq_nonneg ((d.p i).1 - (sub d i).1)]
  have b1 := abs_lt_of_sq_lt_sq' s1 (by norm_num)
  have b2 := abs_lt_of_sq_lt_sq' s2 (by norm_num)
  refine ⟨?_, ?_, ?_, ?_⟩ <;> linarith [b1.1, b1.2, b2.1, b2.2]

/-! ### Boards of one row or column, repeated ids, AprilTags 3 -/

/-- With distinct ids no more corners pass than the board has. -/
theorem passing_le (b : Board) (im : Image) (sub : Tag → Fin 4 → ℚ × ℚ) (tags : List Tag) (hd : Decoded tags)
    (hdist : Distinct tags) : passing b im sub tags ≤ b.rows * b.cols * 4 := by
  have hf := fresh_of _ (fun d m hm => by
      obtain ⟨-, i, -, h⟩ := (mem_tagCorners b im sub d m).mp hm
      rw [h]) (nodup_tagCorners b im sub) (List.Perm.refl tags) hdist
  rw [← length_passing b im sub (List.Perm.refl tags)]
  unfold Fresh at hf
  have hsub : (tags.flatMap (tagCorners b.rows b.cols im sub)).map (fun m => (m.1, m.2.1)) ⊆ allCorners b.rows b.cols := by
    intro k hk
    obtain ⟨m, hm, rfl⟩ := List.mem_map.mp hk
    obtain ⟨d, h1, h2⟩ := List.mem_flatMap.mp hm
    obtain ⟨h3, i, -, rfl⟩ := (mem_tagCorners b im sub d m).mp h2
    refine (mem_allCorners b.rows b.cols _ _).mpr ⟨hd d h1 h3.1, by exact_mod_cast h3.2.1, ?_, ?_⟩ <;> simp
  have := (hf.subperm hsub).length_le
  rw [List.length_map, allCorners_eq, tab_length] at this
  exact this

/-- A board with a single row or column of tags is never detected: the threshold asks for one tag more than it has. -/
theorem C59_strip_refuted (b : Board) (hb : b.rows ≤ 1 ∨ b.cols ≤ 1) (srt : List Tag → List Tag) (hsrt : Sorts srt)
    (sub : Tag → Fin 4 → ℚ × ℚ) (ts : Int) (im : Image) (tags : List Tag) (hd : Decoded tags) (hdist : Distinct tags)
    (him : im.channels = 1) : ∃ g, detect b srt sub ts im tags = .ok g ∧ Nothing b g := by
  obtain ⟨g, h1, -, -, -, -, -, h2, -⟩ := C59_detect b srt hsrt sub ts im tags hd him
  refine ⟨g, h1, h2 (Or.inr ?_)⟩
  have h := passing_le b im sub tags hd hdist
  have : b.rows * b.cols ≤ max b.rows b.cols := by
    rcases hb with hb | hb
    · calc b.rows * b.cols ≤ 1 * b.cols := Nat.mul_le_mul_right _ hb
        _ ≤ max b.rows b.cols := by omega
    · calc b.rows * b.cols ≤ b.rows * 1 := Nat.mul_le_mul_left _ hb
        _ ≤ max b.rows b.cols := by omega
  omega

/-- AprilTags 3 detections are not filtered: whatever their quality, position and number, they all enter the grid. -/
theorem C59_v3_refuted (b : Board) (ts : Int) (im : Image) (tags : List Tag) (him : im.channels = 1)
    (hv : ∀ d ∈ tags, 0 ≤ d.id ∧ d.id < (b.rows * b.cols : Nat)) :
    ∃ g, detectV3 b ts im tags = .ok g ∧ (g.detected = true ↔ tags ≠ []) ∧
      ∀ d ∈ tags, ∀ i : Fin 4, has g d.id i.val = .ok true := by
  unfold detectV3
  rw [if_neg (by simp [him])]
  have hval : ∀ m ∈ tags.flatMap (fun t => (List.finRange 4).map fun i => (t.id, (i.val : Int), t.p i)),
      Valid b.rows b.cols m.1 m.2.1 := by
    intro m hm
    obtain ⟨d, h1, h2⟩ := List.mem_flatMap.mp hm
    obtain ⟨i, -, rfl⟩ := List.mem_map.mp h2
    obtain ⟨h3, h4⟩ := hv d h1
    refine ⟨h3, by exact_mod_cast h4, ?_, ?_⟩ <;> simp
  obtain ⟨g, e0, -, -, -, -, -, e6, e7, -⟩ := made b ts _ hval
  refine ⟨g, e0, ?_, ?_⟩
  · rw [e7, ← List.length_pos_iff, ← List.length_pos_iff, List.length_flatMap]
    simp
  · intro d h1 i
    obtain ⟨h3, h4⟩ := hv d h1
    refine (e6 d.id i.val ⟨h3, by exact_mod_cast h4, by simp, by simp⟩).1.mpr ⟨d.p i, ?_⟩
    exact List.mem_flatMap.mpr ⟨d, h1, List.mem_map.mpr ⟨i, List.mem_finRange i, rfl⟩⟩

/-- A tag that does not belong to the board makes AprilTags 3 detection fail; the first id past the board is written
out of bounds. -/
theorem C59_v3_stray_refuted (b : Board) (ts : Int) (im : Image) (d : Tag) (tags : List Tag) (him : im.channels = 1)
    (hc : b.cols ≠ 0) :
    (d.id > (b.rows * b.cols : Nat) → detectV3 b ts im (d :: tags) = .error .fatal) ∧
    (d.id = (b.rows * b.cols : Nat) → detectV3 b ts im (d :: tags) = .error .oob) := by
  have e : ∀ x, add (new ts b.rows b.cols b.size b.spacing) d.id 0 (d.p 0) = .error x →
      detectV3 b ts im (d :: tags) = .error x := by
    intro x hx
    unfold detectV3 addAll
    rw [if_neg (by simp [him]), List.flatMap_cons, List.finRange_succ, List.map_cons, List.cons_append, List.foldlM_cons]
    show (add _ d.id 0 (d.p 0) >>= _) = _
    rw [hx]
    rfl
  refine ⟨fun h => e _ (C04_rejects_partial _ d.id 0 (d.p 0) hc (Or.inr (Or.inl h))).2, fun h => e _ ?_⟩
  rw [h]
  exact (C04_tag_boundary_refuted ts b.rows b.cols b.size b.spacing hc 0 (by omega) (d.p 0)).2

/-- A tag of 10 pixels at `(x, y)`. -/
def square (id : Int) (x y : ℚ) : Tag := ⟨id, true, ![(x, y), (x + 10, y), (x + 10, y + 10), (x, y + 10)]⟩

/-- Sorting by insertion. -/
def byId (l : List Tag) : List Tag := l.insertionSort (fun a b => a.id ≤ b.id)

theorem byId_sorts : Sorts byId := by
  intro l
  have i1 : Std.Total (fun a b : Tag => a.id ≤ b.id) := ⟨fun a b => by omega⟩
  have i2 : IsTrans Tag (fun a b => a.id ≤ b.id) := ⟨fun a b c => by omega⟩
  exact ⟨List.perm_insertionSort _ _, List.pairwise_insertionSort (fun a b : Tag => a.id ≤ b.id) l⟩

/-- Evaluation of a concrete case. -/
def check {α : Type} (x : Except Fault α) (p : α → Bool) : Bool := match x with
  | .ok g => p g
  | .error _ => false

theorem of_check {α : Type} {x : Except Fault α} {p : α → Bool} (h : check x p = true) : ∃ g, x = .ok g ∧ p g = true := by
  unfold check at h
  cases x with
  | ok g => exact ⟨g, rfl, h⟩
  | error e => cases h

/-- Repeated ids are counted twice: two detections of the only tag of a board give a count of eight. -/
theorem C59_repeated_refuted : ∃ g, detect ⟨1, 1, 1, 1⟩ byId Tag.p 0 ⟨1, 100, 100⟩ [square 0 10 10, square 0 50 50] = .ok g ∧
    g.nbDetections = 8 ∧ fullyObservable g = .ok false ∧ ∀ c : Fin 4, has g 0 c.val = .ok true := by
  obtain ⟨g, h1, h2⟩ := of_check (x := detect ⟨1, 1, 1, 1⟩ byId Tag.p 0 ⟨1, 100, 100⟩ [square 0 10 10, square 0 50 50])
    (p := fun g => decide (g.nbDetections = 8 ∧ fullyObservable g = .ok false ∧ ∀ c : Fin 4, has g 0 c.val = .ok true))
    (by decide +kernel)
  exact ⟨g, h1, of_decide_eq_true h2⟩

/-- The detector for several cameras uses other rules: four tags of a large board are enough for it, but not for
`detect`; and it drops a tag with one bad corner that `detect` keeps in part. -/
theorem C59_paths_refuted :
    (∃ g g', detect ⟨6, 6, 1, 1⟩ byId Tag.p 0 ⟨1, 100, 100⟩ [square 0 10 10, square 1 30 10, square 2 50 10, square 3 70 10] = .ok g ∧
      detectThread ⟨6, 6, 1, 1⟩ byId Tag.p 0 ⟨1, 100, 100⟩ [square 0 10 10, square 1 30 10, square 2 50 10, square 3 70 10] = .ok g' ∧
      g.detected = false ∧ g'.detected = true ∧ g'.nbDetections = 16) ∧
    ∃ sub g g', detect ⟨3, 3, 1, 1⟩ byId sub 0 ⟨1, 100, 100⟩
        [square 0 10 10, square 1 30 10, square 2 50 10, square 3 70 10, square 4 10 40] = .ok g ∧
      detectThread ⟨3, 3, 1, 1⟩ byId sub 0 ⟨1, 100, 100⟩
        [square 0 10 10, square 1 30 10, square 2 50 10, square 3 70 10, square 4 10 40] = .ok g' ∧
      has g 4 0 = .ok false ∧ has g 4 1 = .ok true ∧ has g' 4 1 = .ok false ∧ g'.nbDetections = 16 := by
  obtain ⟨g1, a1, a2⟩ := of_check (x := detect ⟨6, 6, 1, 1⟩ byId Tag.p 0 ⟨1, 100, 100⟩
    [square 0 10 10, square 1 30 10, square 2 50 10, square 3 70 10]) (p := fun g => decide (g.detected = false))
    (by decide +kernel)
  obtain ⟨g2, b1, b2⟩ := of_check (x := detectThread ⟨6, 6, 1, 1⟩ byId Tag.p 0 ⟨1, 100, 100⟩
    [square 0 10 10, square 1 30 10, square 2 50 10, square 3 70 10])
    (p := fun g => decide (g.detected = true ∧ g.nbDetections = 16)) (by decide +kernel)
  obtain ⟨g3, c1, c2⟩ := of_check (x := detect ⟨3, 3, 1, 1⟩ byId (fun t i => if t.id = 4 ∧ i = 0 then (0, 0) else t.p i) 0
    ⟨1, 100, 100⟩ [square 0 10 10, square 1 30 10, square 2 50 10, square 3 70 10, square 4 10 40])
    (p := fun g => decide (has g 4 0 = .ok false ∧ has g 4 1 = .ok true)) (by decide +kernel)
  obtain ⟨g4, d1, d2⟩ := of_check (x := detectThread ⟨3, 3, 1, 1⟩ byId
    (fun t i => if t.id = 4 ∧ i = 0 then (0, 0) else t.p i) 0
    ⟨1, 100, 100⟩ [square 0 10 10, square 1 30 10, square 2 50 10, square 3 70 10, square 4 10 40])
    (p := fun g => decide (has g 4 1 = .ok false ∧ g.nbDetections = 16)) (by decide +kernel)
  have b2 := of_decide_eq_true b2
  have c2 := of_decide_eq_true c2
  have d2 := of_decide_eq_true d2
  exact ⟨⟨g1, g2, a1, b1, of_decide_eq_true a2, b2.1, b2.2⟩, _, g3, g4, c1, d1, c2.1, c2.2, d2.1, d2.2⟩

/-- The hypotheses of `C59_detect`, with one tag at the border. -/
example : Decoded [square 1 30 10, square 0 10 10, square 2 50 10, square 3 0 10] ∧
    Distinct [square 1 30 10, square 0 10 10, square 2 50 10, square 3 0 10] ∧
    (∀ i, Passes ⟨2, 2, 1, 1⟩ ⟨1, 100, 100⟩ Tag.p (square 0 10 10) i) ∧
    ¬ Inside ⟨1, 100, 100⟩ (square 3 0 10) ∧
    ∃ g, detect ⟨2, 2, 1, 1⟩ byId Tag.p 7 ⟨1, 100, 100⟩ [square 1 30 10, square 0 10 10, square 2 50 10, square 3 0 10] = .ok g ∧
      g.nbDetections = 12 ∧ has g 3 0 = .ok false ∧ keypoint g 1 2 = .ok (40, 20) := by
  obtain ⟨g, h1, h2⟩ := of_check (x := detect ⟨2, 2, 1, 1⟩ byId Tag.p 7 ⟨1, 100, 100⟩
    [square 1 30 10, square 0 10 10, square 2 50 10, square 3 0 10])
    (p := fun g => decide (g.nbDetections = 12 ∧ has g 3 0 = .ok false ∧ keypoint g 1 2 = .ok (40, 20))) (by decide +kernel)
  refine ⟨?_, ?_, ?_, ?_, g, h1, of_decide_eq_true h2⟩
  · intro d hd _
    simp only [List.mem_cons, List.not_mem_nil, or_false] at hd
    rcases hd with rfl | rfl | rfl | rfl <;> simp [square]
  · simp [Distinct, square]
  · intro i
    refine ⟨⟨rfl, by simp [square], ?_⟩, by simp [Close]; norm_num⟩
    intro i
    fin_cases i <;> simp [square] <;> norm_num
  · intro h
    have := (h 0).1
    simp [square] at this
    norm_num at this

/-! ### Several cameras -/

/-- C59, several cameras: the result holds exactly the cameras whose grid was detected, each with the grid found in its
own image. -/
theorem C59_cameras (b : Board) (srt : List Tag → List Tag) (buf : List (Int × Shot))
    (find : Int → Grid ℚ)
    (hf : ∀ e ∈ buf, detectThread b srt e.2.sub e.2.ts e.2.im e.2.tags = .ok (find e.1)) :
    ∃ out, detectAll b srt buf = .ok out ∧ SMap.Sorted out ∧
      ∀ cam, SMap.find cam out = if cam ∈ buf.map Prod.fst ∧ (find cam).detected = true then some (find cam) else none := by
  have key : ∀ (buf : List (Int × Shot)), (∀ e ∈ buf, detectThread b srt e.2.sub e.2.ts e.2.im e.2.tags = .ok (find e.1)) →
      ∃ out, detectAll b srt buf = .ok out ∧ SMap.Sorted out ∧
      ∀ cam, SMap.find cam out = if cam ∈ buf.map Prod.fst ∧ (find cam).detected = true then some (find cam) else none := by
    intro buf
    induction buf using List.reverseRecOn with
    | nil => intro _; exact ⟨[], rfl, List.Pairwise.nil, fun cam => by simp [SMap.find]⟩
    | append_singleton l e ih =>
      intro hf
      obtain ⟨out, h1, h2, h3⟩ := ih (fun x hx => hf x (List.mem_append_left _ hx))
      refine ⟨collect out e.1 (find e.1), ?_, ?_, ?_⟩
      · unfold detectAll at h1 ⊢
        rw [foldlM_concat, h1, ok_bind, hf e (by simp)]
        rfl
      · unfold collect
        split_ifs
        · exact SMap.set_sorted _ _ _ h2
        · exact h2
      · intro cam
        unfold collect
        by_cases hd : (find e.1).detected = true
        · rw [if_pos hd, SMap.find_set, h3]
          by_cases hc : cam = e.1
          · subst hc; simp [hd]
          · rw [if_neg hc]
            have : cam ∈ (l ++ [e]).map Prod.fst ↔ cam ∈ l.map Prod.fst := by simp [hc]
            simp only [this]
        · rw [if_neg hd, h3]
          by_cases hc : cam = e.1
          · subst hc; simp [hd]
          · have : cam ∈ (l ++ [e]).map Prod.fst ↔ cam ∈ l.map Prod.fst := by simp [hc]
            simp only [this]
  exact key buf hf

end Yac.AprilGrid
