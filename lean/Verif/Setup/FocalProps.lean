import Verif.Setup.FocalModel
import Verif.Misc.Props
import Verif.Num.Props
import Verif.AprilGrid.Props
import Mathlib.Tactic.IntervalCases

/-!
# C97: the focal length of an equidistant fisheye camera is recovered from one view
-/

namespace Yac.Setup
open Yac.AprilGrid Yac.Misc

/-! ### Specification -/

/-- The keypoint of a corner. -/
def Seen (g : Grid ℝ) (tag corner : Int) (p : P2) : Prop := keypoint g tag corner = .ok (p 0, p 1)

/-- `p` is a corner on the lower (axis 0) or left (axis 1) edge of a tag in line `k`. -/
def LinePoint (g : Grid ℝ) (axis : Int) (k : Nat) (p : P2) : Prop :=
  (axis = 0 ∧ ∃ j < g.tagCols, Seen g (k * g.tagCols + j : Nat) 0 p ∨ Seen g (k * g.tagCols + j : Nat) 1 p) ∨
  (axis = 1 ∧ ∃ i < g.tagRows, Seen g (i * g.tagCols + k : Nat) 0 p ∨ Seen g (i * g.tagCols + k : Nat) 3 p)

/-- Number of lines. -/
def lineCount (g : Grid ℝ) (axis : Int) : Nat := if axis = 0 then g.tagRows else g.tagCols

/-- The image of a board under an equidistant projection: parallel lines of the board become arcs of
circles that all pass through the two vanishing points, which are `π f` apart (Hughes et al. 2010).
Every corner is seen, every line has three corners that are not on a straight line. -/
structure Fisheye (g : Grid ℝ) (axis : Int) (f : ℝ) : Prop where
  axis_ok : axis = 0 ∨ axis = 1
  count : g.nbDetections = (g.tagRows * g.tagCols * 4 : Nat)
  full : ∀ tag < g.tagRows * g.tagCols, ∀ c < 4, ∃ p, Seen g (tag : Nat) (c : Nat) p
  two : 2 ≤ lineCount g axis
  arcs : ∃ (v0 v1 : P2) (c : Nat → P2) (r : Nat → ℝ), 0 < f ∧ dsq v0 v1 = (Real.pi * f) ^ 2 ∧
    2 / 10 ^ 10 ≤ Real.pi * f ∧
    (∀ k < lineCount g axis, 0 ≤ r k ∧ OnCircle (c k 0) (c k 1) (r k) v0 ∧
      OnCircle (c k 0) (c k 1) (r k) v1 ∧
      (∀ p, LinePoint g axis k p → OnCircle (c k 0) (c k 1) (r k) p) ∧
      ∃ a b d, LinePoint g axis k a ∧ LinePoint g axis k b ∧ LinePoint g axis k d ∧
        (b 0 - a 0) * (d 1 - a 1) - (b 1 - a 1) * (d 0 - a 0) ≠ 0) ∧
    (∀ k < lineCount g axis, ∀ l < lineCount g axis, k ≠ l → c k ≠ c l)

/-! ### Lines -/

theorem kp_iff (g : Grid ℝ) (tag c : Int) (p : P2) : kp g tag c = .ok p ↔ Seen g tag c p := by
  unfold kp Seen
  cases h : keypoint g tag c with
  | error e => simp [AprilGrid.error_bind]
  | ok x =>
    rw [AprilGrid.ok_bind]
    constructor
    · intro e
      simp only [Except.ok.injEq] at e
      subst e; simp
    · intro e
      simp only [Except.ok.injEq] at e
      subst e
      congr 1
      ext i; fin_cases i <;> rfl

theorem line_fold (g : Grid ℝ) (c0 c1 : Int) (tag : Nat → Int) (n : Nat)
    (h : ∀ j < n, ∃ p q, Seen g (tag j) c0 p ∧ Seen g (tag j) c1 q) :
    ∃ l, (List.range n).foldlM (fun points (j : Nat) => pushTwo g c0 c1 points (tag j)) [] = .ok l ∧
      ∀ p, p ∈ l ↔ ∃ j < n, Seen g (tag j) c0 p ∨ Seen g (tag j) c1 p := by
  induction n with
  | zero => exact ⟨[], rfl, by simp⟩
  | succ n ih =>
    obtain ⟨l, hl, hm⟩ := ih (fun j hj => h j (by omega))
    obtain ⟨p, q, hp, hq⟩ := h n (by omega)
    refine ⟨l ++ [p, q], ?_, ?_⟩
    · rw [List.range_succ, foldlM_concat, hl, AprilGrid.ok_bind]
      unfold pushTwo
      rw [(kp_iff g _ _ p).mpr hp, AprilGrid.ok_bind, (kp_iff g _ _ q).mpr hq, AprilGrid.ok_bind]
    · have huniq : ∀ c x y, Seen g (tag n) c x → Seen g (tag n) c y → x = y := by
        intro c x y hx hy
        unfold Seen at hx hy
        rw [hx] at hy
        simp only [Except.ok.injEq, Prod.mk.injEq] at hy
        exact p2_ext hy.1 hy.2
      intro x
      rw [List.mem_append, hm]
      constructor
      · rintro (⟨j, hj, h⟩ | h)
        · exact ⟨j, by omega, h⟩
        · refine ⟨n, by omega, ?_⟩
          rcases List.mem_cons.mp h with rfl | h
          · exact Or.inl hp
          · rw [List.mem_singleton] at h
            subst h
            exact Or.inr hq
      · rintro ⟨j, hj, hx⟩
        by_cases hjn : j = n
        · rw [hjn] at hx
          right
          rcases hx with hx | hx
          · rw [huniq _ _ _ hx hp]; simp
          · rw [huniq _ _ _ hx hq]; simp
        · exact Or.inl ⟨j, by omega, hx⟩

theorem mapM_ok {α β : Type} (f : α → Except Fault β) (R : α → β → Prop) (l : List α)
    (h : ∀ a ∈ l, ∃ b, f a = .ok b ∧ R a b) :
    ∃ bs, l.mapM f = .ok bs ∧ List.Forall₂ R l bs := by
  induction l with
  | nil => exact ⟨[], rfl, .nil⟩
  | cons a l ih =>
    obtain ⟨b, hb, hr⟩ := h a List.mem_cons_self
    obtain ⟨bs, hbs, hrs⟩ := ih (fun x hx => h x (List.mem_cons_of_mem _ hx))
    refine ⟨b :: bs, ?_, .cons hr hrs⟩
    rw [List.mapM_cons, hb, AprilGrid.ok_bind, hbs, AprilGrid.ok_bind]
    rfl

theorem seen_lt {r c i j : Nat} (hi : i < r) (hj : j < c) : i * c + j < r * c := by
  have : (i + 1) * c ≤ r * c := Nat.mul_le_mul_right _ hi
  rw [Nat.add_mul, Nat.one_mul] at this
  omega

/-- The lines the code collects. -/
theorem lines_ok {g : Grid ℝ} {axis : Int} (ha : axis = 0 ∨ axis = 1)
    (full : ∀ tag < g.tagRows * g.tagCols, ∀ c < 4, ∃ p, Seen g (tag : Nat) (c : Nat) p) :
    ∃ ls, lines g axis = .ok ls ∧
      List.Forall₂ (fun k l => ∀ p, p ∈ l ↔ LinePoint g axis k p) (List.range (lineCount g axis)) ls := by
  unfold lines lineCount
  rcases ha with rfl | rfl
  · rw [if_pos rfl, if_pos rfl]
    apply mapM_ok
    intro i hi
    rw [List.mem_range] at hi
    obtain ⟨l, hl, hm⟩ := line_fold g 0 1 (fun j => ((i * g.tagCols + j : Nat) : Int)) g.tagCols (by
      intro j hj
      obtain ⟨p, hp⟩ := full _ (seen_lt hi hj) 0 (by norm_num)
      obtain ⟨q, hq⟩ := full _ (seen_lt hi hj) 1 (by norm_num)
      exact ⟨p, q, hp, hq⟩)
    refine ⟨l, hl, fun p => ?_⟩
    rw [hm]
    unfold LinePoint
    simp
  · rw [if_neg (by norm_num), if_pos rfl, if_neg (by norm_num)]
    apply mapM_ok
    intro j hj
    rw [List.mem_range] at hj
    obtain ⟨l, hl, hm⟩ := line_fold g 0 3 (fun i => ((j + i * g.tagCols : Nat) : Int)) g.tagRows (by
      intro i hi
      have e : j + i * g.tagCols = i * g.tagCols + j := by omega
      obtain ⟨p, hp⟩ := full _ (seen_lt hi hj) 0 (by norm_num)
      obtain ⟨q, hq⟩ := full _ (seen_lt hi hj) 3 (by norm_num)
      rw [← e] at hp hq
      exact ⟨p, q, hp, hq⟩)
    refine ⟨l, hl, fun p => ?_⟩
    rw [hm]
    unfold LinePoint
    have e : ∀ i, j + i * g.tagCols = i * g.tagCols + j := fun i => by omega
    simp only [e]
    simp

/-! ### Circles -/

theorem forall2_map_eq {α β γ : Type} {R : α → β → Prop} {f : β → γ} {h : α → γ} {l : List α} {m : List β}
    (hr : List.Forall₂ R l m) (e : ∀ a b, a ∈ l → R a b → f b = h a) : m.map f = l.map h := by
  induction hr with
  | nil => rfl
  | cons hab _ ih =>
    rw [List.map_cons, List.map_cons, e _ _ List.mem_cons_self hab,
      ih (fun a b ha hr => e a b (List.mem_cons_of_mem _ ha) hr)]

theorem mem_pairs_range (n : Nat) (f : Nat → β) (x : β × β) :
    x ∈ pairs ((List.range' s n).map f) → ∃ i j, s ≤ i ∧ i < s + n ∧ s ≤ j ∧ j < s + n ∧ i ≠ j ∧ x = (f i, f j) := by
  induction n generalizing s with
  | zero => simp [pairs]
  | succ n ih =>
    rw [List.range'_succ, List.map_cons, pairs, List.mem_append]
    rintro (h | h)
    · obtain ⟨b, hb, rfl⟩ := List.mem_map.mp h
      obtain ⟨j, hj, rfl⟩ := List.mem_map.mp hb
      rw [List.mem_range'_1] at hj
      exact ⟨s, j, by omega, by omega, by omega, by omega, by omega, rfl⟩
    · obtain ⟨i, j, h1, h2, h3, h4, h5, e⟩ := ih h
      exact ⟨i, j, by omega, by omega, by omega, by omega, h5, e⟩

theorem pairs_ne_nil {α : Type} {l : List α} (h : 2 ≤ l.length) : pairs l ≠ [] := by
  match l, h with
  | a :: b :: l, _ => simp [pairs]

theorem mapM_const {α β : Type} (f : α → Except Fault β) (b : β) (l : List α)
    (h : ∀ a ∈ l, f a = .ok b) : l.mapM f = .ok (List.replicate l.length b) := by
  induction l with
  | nil => rfl
  | cons a l ih =>
    rw [List.mapM_cons, h a List.mem_cons_self, AprilGrid.ok_bind,
      ih (fun x hx => h x (List.mem_cons_of_mem _ hx)), AprilGrid.ok_bind]
    rfl

theorem median_replicate (n : Nat) (hn : n ≠ 0) (f : ℝ) :
    Num.median (List.replicate n f) = .ok f := by
  have hs : (List.replicate n f).insertionSort (· ≤ ·) = List.replicate n f := by
    apply List.eq_replicate_iff.mpr
    refine ⟨by rw [(List.perm_insertionSort _ _).length_eq, List.length_replicate], ?_⟩
    intro b hb
    exact List.eq_of_mem_replicate ((List.perm_insertionSort _ _).mem_iff.mp hb)
  unfold Num.median
  simp only [hs, List.length_replicate]
  by_cases h : n % 2 = 1
  · rw [if_pos h, List.getElem?_replicate, if_pos (by omega)]
  · rw [if_neg h, if_neg hn, List.getElem?_replicate, if_pos (by omega), List.getElem?_replicate,
      if_pos (by omega)]
    simp

/-- Two circles through two points that are far enough apart meet in just these. -/
theorem guess_ok {c d v0 v1 : P2} {r s f : ℝ} (hr : 0 ≤ r) (hs : 0 ≤ s) (hne : c ≠ d) (hf : 0 < f)
    (hv : dsq v0 v1 = (Real.pi * f) ^ 2) (hfar : 2 / 10 ^ 10 ≤ Real.pi * f)
    (h0 : OnCircle (c 0) (c 1) r v0) (h1 : OnCircle (c 0) (c 1) r v1)
    (g0 : OnCircle (d 0) (d 1) s v0) (g1 : OnCircle (d 0) (d 1) s v1) :
    guess ((c 0, c 1, r), (d 0, d 1, s)) = .ok (some f) := by
  have hc : c 0 ≠ d 0 ∨ c 1 ≠ d 1 := by
    by_contra h
    push Not at h
    exact hne (p2_ext h.1 h.2)
  obtain ⟨l, hl, he, h2, hone, hlen⟩ := C61_intersect (c 0) (c 1) r (d 0) (d 1) s hr hs hc
  have hpos : 0 < Real.pi * f := mul_pos Real.pi_pos hf
  have hvne : v0 ≠ v1 := by
    rintro rfl
    unfold dsq at hv
    have := pow_pos hpos 2
    rw [← hv] at this
    simp at this
  unfold guess
  rw [hl]
  match l, hlen with
  | [], _ => exact absurd ⟨h0, g0⟩ (he rfl v0)
  | [p], _ =>
    exfalso
    have e0 := (hone p rfl).2 v0 h0 g0
    have e1 := (hone p rfl).2 v1 h1 g1
    unfold dsq at e0 e1 hv
    have hsq : (2 / 10 ^ 10 : ℝ) ^ 2 ≤ (Real.pi * f) ^ 2 := pow_le_pow_left₀ (by norm_num) hfar 2
    rw [← hv] at hsq
    nlinarith [sq_nonneg (v0 0 - p 0 + (v1 0 - p 0)), sq_nonneg (v0 1 - p 1 + (v1 1 - p 1))]
  | [p, q], _ =>
    obtain ⟨hpq, hx⟩ := h2 p q rfl
    have k0 := (hx v0).mp ⟨h0, g0⟩
    have k1 := (hx v1).mp ⟨h1, g1⟩
    have hd : (p 0 - q 0) ^ 2 + (p 1 - q 1) ^ 2 = (Real.pi * f) ^ 2 := by
      rw [← hv]
      unfold dsq
      rcases k0 with rfl | rfl <;> rcases k1 with rfl | rfl
      · exact absurd rfl hvne
      · rfl
      · ring
      · exact absurd rfl hvne
    show Except.ok (some (Real.sqrt ((p 0 - q 0) ^ 2 + (p 1 - q 1) ^ 2) / Real.pi)) = _
    rw [hd, Real.sqrt_sq hpos.le, mul_div_cancel_left₀ _ Real.pi_ne_zero]

/-- **C97.**  For every board and every fully seen image of it under an equidistant projection with
focal length `f`, and every least-squares solver, `focal_init` returns exactly `f`. -/
theorem C97_focal (solve : List ((Fin 3 → ℝ) × ℝ) → Fin 3 → ℝ)
    (hsolve : ∀ rows, IsLeastSquares rows (solve rows)) (g : Grid ℝ) (axis : Int) (f : ℝ)
    (h : Fisheye g axis f) : focalInit solve g axis = .ok (some f) := by
  obtain ⟨ha, hcount, hfull, htwo, v0, v1, c, r, hf, hv, hfar, hk, hdist⟩ := h
  obtain ⟨ls, hls, hfa⟩ := lines_ok ha hfull
  have hcirc : ls.map (fitCircle solve) =
      (List.range (lineCount g axis)).map (fun k => (c k 0, c k 1, r k)) := by
    refine forall2_map_eq hfa ?_
    intro k l hkm hm
    rw [List.mem_range] at hkm
    obtain ⟨hr, _, _, hon, a, b, d, ha, hb, hd, hn⟩ := hk k hkm
    exact C61_fit_circle l _ _ _ hr (fun p hp => hon p ((hm p).mp hp)) a b d ((hm a).mpr ha)
      ((hm b).mpr hb) ((hm d).mpr hd) hn solve (hsolve _)
  have hg : ∀ x ∈ pairs (ls.map (fitCircle solve)), guess x = .ok (some f) := by
    rw [hcirc, List.range_eq_range']
    intro x hx
    obtain ⟨i, j, _, hi, _, hj, hij, rfl⟩ := mem_pairs_range _ _ x hx
    rw [Nat.zero_add] at hi hj
    obtain ⟨hr, h0, h1, _⟩ := hk i hi
    obtain ⟨hs, g0, g1, _⟩ := hk j hj
    exact guess_ok hr hs (hdist i hi j hj hij) hf hv hfar h0 h1 g0 g1
  have hne : (pairs (ls.map (fitCircle solve))).length ≠ 0 := by
    rw [Ne, List.length_eq_zero_iff]
    apply pairs_ne_nil
    rw [hcirc, List.length_map, List.length_range]
    exact htwo
  unfold focalInit
  rw [if_neg (by rw [hcount]; exact lt_irrefl _), hls, AprilGrid.ok_bind, mapM_const guess (some f) _ hg,
    AprilGrid.ok_bind]
  simp only
  have hfm : (List.replicate (pairs (ls.map (fitCircle solve))).length (some f)).filterMap id =
      List.replicate (pairs (ls.map (fitCircle solve))).length f := by
    rw [List.filterMap_replicate_of_some (f := id) rfl]
  rw [hfm, if_neg (by rw [List.replicate_eq_nil_iff]; exact hne), median_replicate _ hne,
    AprilGrid.ok_bind]

/-- A board that is not completely seen gives no focal length, and nothing is read. -/
theorem C97_unseen (solve : List ((Fin 3 → ℝ) × ℝ) → Fin 3 → ℝ) (g : Grid ℝ) (axis : Int)
    (h : g.nbDetections < (g.tagRows * g.tagCols * 4 : Nat)) : focalInit solve g axis = .ok none := by
  unfold focalInit; rw [if_pos h]

/-- Two neighbouring lines on one and the same circle: the first guess is NaN. -/
theorem C97_coincident_refuted (cx cy r : ℝ) (hr : 0 ≤ r) :
    guess ((cx, cy, r), (cx, cy, r)) = .error .divZero := by
  unfold guess
  rw [C61_intersect_refuted cx cy r hr]

/-- A corner detected repeatedly counts every time, so a board may pass the test although corners
are missing: then the process stops. -/
theorem C97_repeated_refuted (solve : List ((Fin 3 → ℝ) × ℝ) → Fin 3 → ℝ) :
    ∃ g, run (new 0 1 1 (1 : ℝ) 0) [.add 0 0 (1, 2), .add 0 0 (1, 2), .add 0 0 (1, 2), .add 0 0 (1, 2)] = .ok g ∧
      fullyObservable g = .ok true ∧ focalInit solve g 0 = .error .fatal := by
  refine ⟨_, rfl, rfl, ?_⟩
  rfl

/-! ### A board seen by a fisheye camera -/

/-- The corner rows of tags 0 to 3. -/
def eyeRow (x y : ℝ) : Row ℝ := ⟨1, x, y, 0, 0, 0⟩

/-- Two rows of two tags; the rows lie on the circles of radius 5 around (0, 3) and (0, -3). -/
def eyeGrid : Grid ℝ := ⟨true, 7, 2, 2, 1, 0, true, 16,
  [eyeRow (-5) 3, eyeRow 0 8, eyeRow 1 1, eyeRow 2 1, eyeRow 0 (-2), eyeRow 5 3, eyeRow 3 1, eyeRow 4 1,
   eyeRow (-5) (-3), eyeRow 0 (-8), eyeRow 5 1, eyeRow 6 1, eyeRow 0 2, eyeRow 5 (-3), eyeRow 7 1,
   eyeRow 8 1]⟩

theorem eyeFish : Fisheye eyeGrid 0 (8 / Real.pi) := by
  have hs : ∀ (tag c : Int) (x y : ℝ) (p : P2), keypoint eyeGrid tag c = .ok (x, y) →
      (Seen eyeGrid tag c p ↔ p = ![x, y]) := by
    intro tag c x y p h
    unfold Seen
    rw [h]
    constructor
    · intro e
      simp only [Except.ok.injEq, Prod.mk.injEq] at e
      exact p2_ext e.1.symm e.2.symm
    · rintro rfl; rfl
  have hp : Real.pi * (8 / Real.pi) = 8 := mul_div_cancel₀ _ Real.pi_ne_zero
  have k00 : keypoint eyeGrid ((0 : Nat) : Int) 0 = .ok (-5, 3) := by simp [keypoint, readRow, eyeGrid, eyeRow, AprilGrid.ok_bind, pure, Except.pure]
  have k01 : keypoint eyeGrid ((0 : Nat) : Int) 1 = .ok (0, 8) := by simp [keypoint, readRow, eyeGrid, eyeRow, AprilGrid.ok_bind, pure, Except.pure]
  have k10 : keypoint eyeGrid ((1 : Nat) : Int) 0 = .ok (0, -2) := by simp [keypoint, readRow, eyeGrid, eyeRow, AprilGrid.ok_bind, pure, Except.pure]
  have k11 : keypoint eyeGrid ((1 : Nat) : Int) 1 = .ok (5, 3) := by simp [keypoint, readRow, eyeGrid, eyeRow, AprilGrid.ok_bind, pure, Except.pure]
  have k20 : keypoint eyeGrid ((2 : Nat) : Int) 0 = .ok (-5, -3) := by simp [keypoint, readRow, eyeGrid, eyeRow, AprilGrid.ok_bind, pure, Except.pure]
  have k21 : keypoint eyeGrid ((2 : Nat) : Int) 1 = .ok (0, -8) := by simp [keypoint, readRow, eyeGrid, eyeRow, AprilGrid.ok_bind, pure, Except.pure]
  have k30 : keypoint eyeGrid ((3 : Nat) : Int) 0 = .ok (0, 2) := by simp [keypoint, readRow, eyeGrid, eyeRow, AprilGrid.ok_bind, pure, Except.pure]
  have k31 : keypoint eyeGrid ((3 : Nat) : Int) 1 = .ok (5, -3) := by simp [keypoint, readRow, eyeGrid, eyeRow, AprilGrid.ok_bind, pure, Except.pure]
  have l0 : ∀ p, LinePoint eyeGrid 0 0 p ↔ p = ![-5, 3] ∨ p = ![0, 8] ∨ p = ![0, -2] ∨ p = ![5, 3] := by
    intro p
    unfold LinePoint
    have e : ∀ j, (0 * eyeGrid.tagCols + j) = j := fun j => by simp
    simp only [e]
    constructor
    · rintro (⟨_, j, hj, h⟩ | ⟨h, _⟩)
      · have hj : j < 2 := hj
        interval_cases j
        · rw [hs _ _ _ _ p k00, hs _ _ _ _ p k01] at h; tauto
        · rw [hs _ _ _ _ p k10, hs _ _ _ _ p k11] at h; tauto
      · norm_num at h
    · rintro (h | h | h | h)
      · exact Or.inl ⟨trivial, 0, by decide, Or.inl ((hs _ _ _ _ p k00).mpr h)⟩
      · exact Or.inl ⟨trivial, 0, by decide, Or.inr ((hs _ _ _ _ p k01).mpr h)⟩
      · exact Or.inl ⟨trivial, 1, by decide, Or.inl ((hs _ _ _ _ p k10).mpr h)⟩
      · exact Or.inl ⟨trivial, 1, by decide, Or.inr ((hs _ _ _ _ p k11).mpr h)⟩
  have l1 : ∀ p, LinePoint eyeGrid 0 1 p ↔ p = ![-5, -3] ∨ p = ![0, -8] ∨ p = ![0, 2] ∨ p = ![5, -3] := by
    intro p
    unfold LinePoint
    have e : ∀ j, (1 * eyeGrid.tagCols + j) = 2 + j := fun j => by simp [eyeGrid]
    simp only [e]
    constructor
    · rintro (⟨_, j, hj, h⟩ | ⟨h, _⟩)
      · have hj : j < 2 := hj
        interval_cases j
        · rw [hs _ _ _ _ p k20, hs _ _ _ _ p k21] at h; tauto
        · rw [hs _ _ _ _ p k30, hs _ _ _ _ p k31] at h; tauto
      · norm_num at h
    · rintro (h | h | h | h)
      · exact Or.inl ⟨trivial, 0, by decide, Or.inl ((hs _ _ _ _ p k20).mpr h)⟩
      · exact Or.inl ⟨trivial, 0, by decide, Or.inr ((hs _ _ _ _ p k21).mpr h)⟩
      · exact Or.inl ⟨trivial, 1, by decide, Or.inl ((hs _ _ _ _ p k30).mpr h)⟩
      · exact Or.inl ⟨trivial, 1, by decide, Or.inr ((hs _ _ _ _ p k31).mpr h)⟩
  refine ⟨Or.inl rfl, rfl, ?_, by decide, ![-4, 0], ![4, 0],
    fun k => ![0, if k = 0 then 3 else -3], fun _ => 5, by positivity, ?_, ?_, ?_, ?_⟩
  · intro tag ht c hc
    have ht : tag < 4 := ht
    interval_cases tag <;> interval_cases c <;>
      exact ⟨![_, _], by unfold Seen; simp [keypoint, readRow, eyeGrid, eyeRow, AprilGrid.ok_bind, pure, Except.pure]; exact ⟨rfl, rfl⟩⟩
  · rw [hp]; simp [dsq]; norm_num
  · rw [hp]; norm_num
  · intro k hk
    have hk : k < 2 := hk
    interval_cases k
    · refine ⟨by norm_num, by simp [OnCircle]; norm_num, by simp [OnCircle]; norm_num, ?_,
        ![-5, 3], ![0, 8], ![0, -2], (l0 _).mpr (by simp), (l0 _).mpr (by simp), (l0 _).mpr (by simp), ?_⟩
      · intro p hp
        rcases (l0 p).mp hp with rfl | rfl | rfl | rfl <;> simp [OnCircle] <;> norm_num
      · simp; norm_num
    · refine ⟨by norm_num, by simp [OnCircle]; norm_num, by simp [OnCircle]; norm_num, ?_,
        ![-5, -3], ![0, -8], ![0, 2], (l1 _).mpr (by simp), (l1 _).mpr (by simp), (l1 _).mpr (by simp), ?_⟩
      · intro p hp
        rcases (l1 p).mp hp with rfl | rfl | rfl | rfl <;> simp [OnCircle] <;> norm_num
      · simp; norm_num
  · intro k hk l hl hkl e
    have hk : k < 2 := hk
    have hl : l < 2 := hl
    have := congrFun e 1
    interval_cases k <;> interval_cases l <;> simp at hkl this <;> norm_num at this

end Yac.Setup
