import Verif.AprilGrid.Multi
import Verif.AprilGrid.SaveLoad
import Verif.AprilGrid.Sample
import Verif.Containers.Spec
import Mathlib.Algebra.Order.Field.Basic
import Mathlib.Data.Rat.Cast.Order
import Mathlib.Tactic.NormNum
import Mathlib.Data.Nat.Pairing
import Mathlib.Tactic.Positivity

/-!
Properties C01-C10: the AprilGrid container.

`Spec.run ops` is the map from (tag, corner) to keypoint that a user expects after the calls
`ops`; `Spec.held rows cols m` lists the corners held by `m` in (tag, corner) order.
-/

namespace Yac.AprilGrid
open Spec

section generic
variable {K : Type} [Field K]

/-! ## C01 -/

/-- C01: after any sequence of `add`, `remove` and `clear` calls with in-range arguments on
a new grid (no call fails), `has` and `keypoint` answer for every corner as the map built
by the same calls; `keypoint` of a missing corner is fatal. -/
theorem C01_map_refinement (ts : Int) (rows cols : Nat) (size spacing : K) (ops : List (Op K))
    (hv : ∀ op ∈ ops, OpValid rows cols op) :
    ∃ g, run (new ts rows cols size spacing) ops = .ok g ∧
      ∀ t c, Valid rows cols t c →
        has g t c = .ok (Spec.run ops t c).isSome ∧
        keypoint g t c = (match Spec.run ops t c with
          | some kp => .ok kp
          | none => .error .fatal) := by
  obtain ⟨g, hg, hr⟩ := run_rel ts rows cols size spacing ops hv
  exact ⟨g, hg, fun t c h => ⟨hr.toCore.has_eq h, hr.toCore.keypoint_eq h⟩⟩

/-- C01: the calls never change what the grid is a grid of. -/
theorem C01_frame (ts : Int) (rows cols : Nat) (size spacing : K) (ops : List (Op K))
    (hv : ∀ op ∈ ops, OpValid rows cols op) (g : Grid K)
    (hg : run (new ts rows cols size spacing) ops = .ok g) :
    g.init = true ∧ g.timestamp = ts ∧ g.tagRows = rows ∧ g.tagCols = cols ∧
      g.tagSize = size ∧ g.tagSpacing = spacing ∧ g.data.length = rows * cols * 4 := by
  obtain ⟨g', hg', hr⟩ := run_rel ts rows cols size spacing ops hv
  rw [hg] at hg'
  cases hg'
  exact ⟨hr.hinit, hr.hts, hr.hrows, hr.hcols, hr.hsize, hr.hspacing, hr.toCore.length⟩

/-! ## C02 -/

/-- C02, exact form: the counter is the number of corners held plus the number of `add`
calls since the last `clear` that overwrote a held corner; `detected` says whether the
counter is positive. -/
theorem C02_counter_exact (ts : Int) (rows cols : Nat) (size spacing : K) (ops : List (Op K))
    (hv : ∀ op ∈ ops, OpValid rows cols op) (g : Grid K)
    (hg : run (new ts rows cols size spacing) ops = .ok g) :
    g.nbDetections = (Spec.size rows cols (Spec.run ops) + overwrites ops : Nat) ∧
    g.detected = decide (0 < g.nbDetections) ∧
    fullyObservable g = .ok (decide (Spec.size rows cols (Spec.run ops) + overwrites ops
      = rows * cols * 4)) := by
  obtain ⟨g', hg', hr⟩ := run_rel ts rows cols size spacing ops hv
  rw [hg] at hg'
  cases hg'
  exact ⟨by rw [hr.nb, spec_size], hr.det, Rel.fully_eq hr.toCore⟩

/-- C02 for histories in which no `add` hits a corner that is already held (missing:
histories with such an `add`, for which the claim is false). -/
theorem C02_counter_partial (ts : Int) (rows cols : Nat) (size spacing : K) (ops : List (Op K))
    (hv : ∀ op ∈ ops, OpValid rows cols op) (hfresh : overwrites ops = 0) (g : Grid K)
    (hg : run (new ts rows cols size spacing) ops = .ok g) :
    g.nbDetections = (Spec.size rows cols (Spec.run ops) : Nat) ∧
    (g.detected = true ↔ 0 < Spec.size rows cols (Spec.run ops)) ∧
    (fullyObservable g = .ok true ↔ ∀ t c, Valid rows cols t c → (Spec.run ops t c).isSome) := by
  obtain ⟨h1, h2, h3⟩ := C02_counter_exact ts rows cols size spacing ops hv g hg
  rw [hfresh, Nat.add_zero] at h1 h3
  refine ⟨h1, ?_, ?_⟩
  · rw [h2, h1]; simp
  · rw [h3]
    simp only [Except.ok.injEq, decide_eq_true_eq]
    rw [spec_size]
    have hl : (List.range (rows * cols * 4)).length = rows * cols * 4 := List.length_range
    conv_lhs => rw [← hl, List.length_range]
    constructor
    · intro h t c hvv
      have : (List.range (rows * cols * 4)).countP (heldAt (Spec.run ops)) =
          (List.range (rows * cols * 4)).length := by rw [hl]; exact h
      rw [List.countP_eq_length] at this
      obtain ⟨t, c, rfl, rfl, ht, hc, hidx, hlt, hd4, hm4⟩ := valid_index hvv
      have := this (t * 4 + c) (List.mem_range.mpr hlt)
      rwa [heldAt, hd4, hm4] at this
    · intro h
      have : (List.range (rows * cols * 4)).countP (heldAt (Spec.run ops)) =
          (List.range (rows * cols * 4)).length := by
        rw [List.countP_eq_length]
        intro i hi
        have hi := List.mem_range.mp hi
        apply h
        refine ⟨by omega, ?_, by omega, by omega⟩
        have : i / 4 < rows * cols := by omega
        exact_mod_cast this
      rw [this, hl]

/-- C02: in every history the counter is at least the number of corners held, so a grid
that is not `detected` holds no corner. -/
theorem C02_not_detected_empty (ts : Int) (rows cols : Nat) (size spacing : K) (ops : List (Op K))
    (hv : ∀ op ∈ ops, OpValid rows cols op) (g : Grid K)
    (hg : run (new ts rows cols size spacing) ops = .ok g) (hd : g.detected = false) :
    ∀ t c, Valid rows cols t c → has g t c = .ok false := by
  obtain ⟨g', hg', hr⟩ := run_rel ts rows cols size spacing ops hv
  rw [hg] at hg'
  cases hg'
  intro t c hvv
  have h0 : ¬ (0 < g.nbDetections) := by
    have := hr.det; rw [hd] at this; simpa using this.symm
  have hz : (List.range (rows * cols * 4)).countP (heldAt (Spec.run ops)) = 0 := by
    have := hr.nb; omega
  rw [hr.toCore.has_eq hvv]
  have hnil := held_nil_of_count hz
  cases hm : Spec.run ops t c with
  | none => rfl
  | some kp =>
    have := (mem_held rows cols (Spec.run ops) t c kp).mpr ⟨hvv, hm⟩
    rw [hnil] at this; exact absurd this (by simp)

/-! ## C03 -/

/-- C03: `get_measurements` appends to the caller's vectors, for exactly the corners held
and in (tag, corner) order, the tag ids, corner indices, keypoints and board positions;
`keypoints()`, `object_points()` and `tag_ids()` agree with it. -/
theorem C03_measurements (ts : Int) (rows cols : Nat) (size spacing : K) (ops : List (Op K))
    (hv : ∀ op ∈ ops, OpValid rows cols op) (g : Grid K)
    (hg : run (new ts rows cols size spacing) ops = .ok g) (out : Meas K) :
    let h := held rows cols (Spec.run ops)
    let pt := fun (e : (Int × Int) × (K × K)) =>
      boardPoint cols size spacing e.1.1.toNat e.1.2.toNat
    getMeasurements g out = .ok ⟨out.tagIds ++ h.map (fun e => e.1.1),
      out.corners ++ h.map (fun e => e.1.2), out.keypoints ++ h.map (fun e => e.2),
      out.points ++ h.map pt⟩ ∧
    keypoints g = .ok (h.map (fun e => e.2)) ∧ objectPoints g = .ok (h.map pt) ∧
    ∃ l, tagIds g = .ok l ∧ Yac.Spec.Ascending l ∧ ∀ t, t ∈ l ↔ ∃ e ∈ h, e.1.1 = t := by
  obtain ⟨g', hg', hr⟩ := run_rel ts rows cols size spacing ops hv
  rw [hg] at hg'
  cases hg'
  exact ⟨hr.getMeasurements_eq out, hr.toCore.keypoints_eq, hr.toCore.objectPoints_eq,
    hr.toCore.tagIds_eq⟩

omit [Field K] in
/-- C03: the list used above is strictly increasing in (tag, corner) and contains exactly
the valid corners that the map holds. -/
theorem C03_held_list (rows cols : Nat) (m : CMap K) :
    (held rows cols m).Pairwise (fun a b => a.1.1 < b.1.1 ∨ (a.1.1 = b.1.1 ∧ a.1.2 < b.1.2)) ∧
    ∀ t c kp, ((t, c), kp) ∈ held rows cols m ↔ Valid rows cols t c ∧ m t c = some kp :=
  ⟨held_sorted rows cols m, fun t c kp => mem_held rows cols m t c kp⟩

/-! ## C04 -/

/-- C04: the row index `4*tag + corner` used by every accessor maps the valid (tag, corner)
pairs one-to-one onto the rows of the data matrix. -/
theorem C04_index_bijective (rows cols : Nat) :
    (∀ t c, Valid rows cols t c → 0 ≤ t * 4 + c ∧ t * 4 + c < (rows * cols * 4 : Nat)) ∧
    (∀ t c t' c', Valid rows cols t c → Valid rows cols t' c' → t * 4 + c = t' * 4 + c' →
      t = t' ∧ c = c') ∧
    (∀ i : Int, 0 ≤ i → i < (rows * cols * 4 : Nat) →
      ∃ t c, Valid rows cols t c ∧ t * 4 + c = i) := by
  refine ⟨?_, ?_, ?_⟩
  · intro t c hv
    obtain ⟨t, c, rfl, rfl, ht, hc, hidx, hlt, hd4, hm4⟩ := valid_index hv
    rw [hidx]; omega
  · rintro t c t' c' ⟨_, _, h3, h4⟩ ⟨_, _, h3', h4'⟩ he
    omega
  · intro i h0 h1
    refine ⟨i / 4, i % 4, ⟨by omega, ?_, by omega, by omega⟩, by omega⟩
    have : i / 4 < (rows * cols : Nat) := by push_cast at h1 ⊢; omega
    exact_mod_cast this

/-- C04: `object_point` (and therefore `add`) refuses a negative tag id, a tag id greater
than `rows*cols` and a corner outside 0..3 on a grid with at least one column. -/
theorem C04_rejects_partial (g : Grid K) (t c : Int) (kp : K × K) (hcols : g.tagCols ≠ 0)
    (hbad : t < 0 ∨ t > (g.tagRows * g.tagCols : Nat) ∨ c < 0 ∨ 3 < c) :
    objectPoint g t c = .error .fatal ∧ add g t c kp = .error .fatal := by
  have h : objectPoint g t c = .error .fatal := by
    rw [objectPoint]
    by_cases h1 : t > (g.tagRows * g.tagCols : Nat)
    · rw [gridIndex, if_pos h1]; rfl
    · by_cases h2 : t < 0
      · rw [gridIndex, if_neg h1, if_pos h2]; rfl
      · rw [gridIndex, if_neg h1, if_neg h2, if_neg hcols, ok_bind]
        have : c < 0 ∨ 3 < c := by omega
        simp only
        rw [if_neg (by omega), if_neg (by omega), if_neg (by omega), if_neg (by omega)]
  exact ⟨h, by rw [add, h]; rfl⟩

/-- C04 fails at the boundary: tag id `rows*cols` (one past the last) passes the range check
of `add`, which then writes outside the data matrix. -/
theorem C04_tag_boundary_refuted (ts : Int) (rows cols : Nat) (size spacing : K)
    (hcols : cols ≠ 0) (c : Nat) (hc : c < 4) (kp : K × K) :
    (∃ p, objectPoint (new ts rows cols size spacing) (rows * cols : Nat) c = .ok p) ∧
    add (new ts rows cols size spacing) (rows * cols : Nat) c kp = .error .oob := by
  have hg : gridIndex (new ts rows cols size spacing) (rows * cols : Nat) =
      .ok (Int.tdiv (rows * cols : Nat) cols, Int.tmod (rows * cols : Nat) cols) := by
    rw [gridIndex]
    simp [new, hcols]
    positivity
  have hp : ∃ p, objectPoint (new ts rows cols size spacing) (rows * cols : Nat) c = .ok p := by
    rw [objectPoint, hg, ok_bind]
    have : (c : Int) = 0 ∨ (c : Int) = 1 ∨ (c : Int) = 2 ∨ (c : Int) = 3 := by omega
    rcases this with h | h | h | h <;> rw [h] <;> simp
  refine ⟨hp, ?_⟩
  obtain ⟨p, hp⟩ := hp
  rw [add, hp, ok_bind, writeRow, if_neg (by push_cast; exact not_lt.mpr (by positivity)), if_neg]
  · rfl
  · simp only [new, List.length_replicate]; push_cast; omega

/-- C04 fails for the corner index of `has`, `keypoint` and `remove`: corner `c + 4` of tag
`t` is not rejected but is corner `c` of tag `t + 1`. -/
theorem C04_corner_alias_refuted (g : Grid K) (t c : Int) :
    has g t (c + 4) = has g (t + 1) c ∧ keypoint g t (c + 4) = keypoint g (t + 1) c ∧
    remove g t (c + 4) = remove g (t + 1) c := by
  have : t * 4 + (c + 4) = (t + 1) * 4 + c := by ring
  rw [has, has, keypoint, keypoint, remove, remove, this]
  exact ⟨rfl, rfl, rfl⟩

/-! ## C05 -/

/-- C05: `object_point` is the board position, for every valid corner. -/
theorem C05_object_point (g : Grid K) (t c : Nat) (ht : t < g.tagRows * g.tagCols) (hc : c < 4) :
    objectPoint g t c = .ok (boardPoint g.tagCols g.tagSize g.tagSpacing t c) :=
  objectPoint_eq g t c ht hc

/-- C05: the corner table of the calibration target used by the calibrators
(`fiducial_corners_t`) lists, for every tag and corner once, the same positions. -/
theorem C05_fiducial_corners (rows cols : Nat) (size spacing : K) :
    fiducialCorners rows cols size spacing =
      (List.range (rows * cols)).flatMap (fun t =>
        [((t, 0), boardPoint cols size spacing t 0), ((t, 1), boardPoint cols size spacing t 1),
         ((t, 2), boardPoint cols size spacing t 2), ((t, 3), boardPoint cols size spacing t 3)]) := by
  rw [fiducialCorners]
  congr 1
  funext t
  have hp : size + size * spacing = size * (1 + spacing) := by ring
  simp only [hp]
  simp [boardPoint]

/-! ## C07, C08, C09 -/

/-- C07: intersecting two grids of the same dimensions leaves both with exactly the corners
both held, each with its own keypoints, and decreases each counter by the number of corners
that grid lost.  (`detected` is treated in `C07_detected_refuted`.) -/
theorem C07_intersect_partial (ts ts' : Int) (rows cols : Nat) (size spacing size' spacing' : K)
    (ops ops' : List (Op K)) (hv : ∀ op ∈ ops, OpValid rows cols op)
    (hv' : ∀ op ∈ ops', OpValid rows cols op) (g g' : Grid K)
    (hg : run (new ts rows cols size spacing) ops = .ok g)
    (hg' : run (new ts' rows cols size' spacing') ops' = .ok g') :
    let m := Spec.run ops; let m' := Spec.run ops'
    let mI : CMap K := fun t c => if (m' t c).isSome then m t c else none
    let mI' : CMap K := fun t c => if (m t c).isSome then m' t c else none
    ∃ a b, intersect g g' = .ok (a, b) ∧
      (∀ t c, Valid rows cols t c →
        has a t c = .ok ((m t c).isSome && (m' t c).isSome) ∧
        has b t c = .ok ((m t c).isSome && (m' t c).isSome) ∧
        (∀ kp kp', m t c = some kp → m' t c = some kp' →
          keypoint a t c = .ok kp ∧ keypoint b t c = .ok kp')) ∧
      a.nbDetections = g.nbDetections - ((Spec.size rows cols m : Int) - Spec.size rows cols mI) ∧
      b.nbDetections = g'.nbDetections - ((Spec.size rows cols m' : Int) - Spec.size rows cols mI') := by
  intro m m' mI mI'
  obtain ⟨g1, hg1, hr⟩ := run_rel ts rows cols size spacing ops hv
  obtain ⟨g2, hg2, hr'⟩ := run_rel ts' rows cols size' spacing' ops' hv'
  rw [hg] at hg1; cases hg1
  rw [hg'] at hg2; cases hg2
  obtain ⟨a, b, e, ca, cb, _, _⟩ := intersect_core hr.toCore hr'.toCore
  refine ⟨a, b, e, ?_, ?_, ?_⟩
  · intro t c hvv
    refine ⟨?_, ?_, ?_⟩
    · rw [ca.has_eq hvv, restrict]
      cases h1 : Spec.run ops t c <;> cases h2 : Spec.run ops' t c <;> simp [m, m', h1, h2]
    · rw [cb.has_eq hvv, restrict]
      cases h1 : Spec.run ops t c <;> cases h2 : Spec.run ops' t c <;> simp [m, m', h1, h2]
    · intro kp kp' h1 h2
      rw [ca.keypoint_eq hvv, cb.keypoint_eq hvv, restrict, restrict]
      simp only [m, m'] at h1 h2
      simp [h1, h2]
  · rw [ca.nb, hr.nb, ← spec_size, ← spec_size]
    have : restrict (Spec.run ops) (Spec.run ops') = mI := rfl
    rw [this]; simp only [m]; push_cast; ring
  · rw [cb.nb, hr'.nb, ← spec_size, ← spec_size]
    have : restrict (Spec.run ops') (Spec.run ops) = mI' := rfl
    rw [this]; simp only [m']; push_cast; ring

/-- C07: and `intersect` never touches `detected`. -/
theorem C07_detected_kept (ts ts' : Int) (rows cols : Nat) (size spacing size' spacing' : K)
    (ops ops' : List (Op K)) (hv : ∀ op ∈ ops, OpValid rows cols op)
    (hv' : ∀ op ∈ ops', OpValid rows cols op) (g g' : Grid K)
    (hg : run (new ts rows cols size spacing) ops = .ok g)
    (hg' : run (new ts' rows cols size' spacing') ops' = .ok g') (a b : Grid K)
    (hi : intersect g g' = .ok (a, b)) : a.detected = g.detected ∧ b.detected = g'.detected := by
  obtain ⟨g1, hg1, hr⟩ := run_rel ts rows cols size spacing ops hv
  obtain ⟨g2, hg2, hr'⟩ := run_rel ts' rows cols size' spacing' ops' hv'
  rw [hg] at hg1; cases hg1
  rw [hg'] at hg2; cases hg2
  obtain ⟨a', b', e, _, _, da, db⟩ := intersect_core hr.toCore hr'.toCore
  rw [hi] at e; cases e
  exact ⟨da, db⟩

/-- `g` was made by the calls `ops` on a new `rows x cols` grid. -/
def MadeBy (rows cols : Nat) (ops : List (Op K)) (g : Grid K) : Prop :=
  (∀ op ∈ ops, OpValid rows cols op) ∧
    ∃ ts size spacing, run (new ts rows cols size spacing) ops = .ok g

/-- C08: intersecting a nonempty list of grids of the same dimensions leaves every grid with
exactly the corners present in all of them, with its own keypoints. -/
theorem C08_intersect_all (rows cols : Nat) (hist : List (List (Op K))) (grids : List (Grid K))
    (h : List.Forall₂ (MadeBy rows cols) hist grids) (hne : grids ≠ []) :
    ∃ out, intersectAll grids = .ok out ∧ out.length = grids.length ∧
      ∀ k (hk : k < out.length) (hk' : k < hist.length) t c, Valid rows cols t c →
        (has out[k] t c = .ok (decide (∀ ops ∈ hist, (Spec.run ops t c).isSome))) ∧
        ((∀ ops ∈ hist, (Spec.run ops t c).isSome) →
          ∃ kp, Spec.run hist[k] t c = some kp ∧ keypoint out[k] t c = .ok kp) := by
  have hF : List.Forall₂ (Refines rows cols) (hist.map Spec.run) grids := by
    clear hne
    induction h with
    | nil => exact List.Forall₂.nil
    | @cons ops g hist grids h1 h2 ih =>
      obtain ⟨hv, ts, size, spacing, hr⟩ := h1
      obtain ⟨g', hg', hrel⟩ := run_rel ts rows cols size spacing ops hv
      rw [hr] at hg'; cases hg'
      exact List.Forall₂.cons ⟨ts, size, spacing, _, hrel.toCore⟩ ih
  obtain ⟨out, L, eo, ho, hL⟩ := intersectAll_core _ _ hF hne
  have hlen : out.length = grids.length := by
    have h1 := ho.length_eq; have h2 := h.length_eq
    simp only [List.length_map] at h1; omega
  refine ⟨out, eo, hlen, ?_⟩
  intro k hk hk' t c hvv
  have hck := ho.get (i := k) (by simpa using hk') (by simpa using hk)
  simp only [List.get_eq_getElem, List.getElem_map] at hck
  obtain ⟨ts, size, spacing, extra, hcore⟩ := hck
  have hLtc := hL t c hvv
  have hall : (∀ m ∈ hist.map Spec.run, (m t c).isSome = true) ↔
      ∀ ops ∈ hist, (Spec.run ops t c).isSome = true := by simp
  rw [hall] at hLtc
  by_cases ha : ∀ ops ∈ hist, (Spec.run ops t c).isSome = true
  · have hnot : t * 4 + c ∉ L := fun hm => (hLtc.mp hm) ha
    have hself := ha hist[k] (List.getElem_mem hk')
    obtain ⟨kp, hkp⟩ := Option.isSome_iff_exists.mp hself
    refine ⟨?_, fun _ => ⟨kp, hkp, ?_⟩⟩
    · rw [hcore.has_eq hvv, eraseRows, if_neg hnot, hkp, decide_eq_true ha]; rfl
    · rw [hcore.keypoint_eq hvv, eraseRows, if_neg hnot, hkp]
  · have hin : t * 4 + c ∈ L := hLtc.mpr ha
    refine ⟨?_, fun h => absurd h ha⟩
    rw [hcore.has_eq hvv, eraseRows, if_pos hin, decide_eq_false ha]; rfl

/-- C08: an empty list of grids reads `grids[0]` out of bounds. -/
theorem C08_empty_list_ub : intersectAll ([] : List (Grid K)) = .error .oob := rfl

/-- The corners two maps share, in (tag, corner) order, with both keypoints. -/
def shared (rows cols : Nat) (m m' : CMap K) : List ((Int × Int) × (K × K) × (K × K)) :=
  (allCorners rows cols).filterMap (fun tc =>
    match m tc.1 tc.2, m' tc.1 tc.2 with
    | some a, some b => some (tc, a, b)
    | _, _ => none)

omit [Field K] in
/-- C09: the list `shared` used below contains exactly the corners held by both. -/
theorem C09_shared_list (rows cols : Nat) (m m' : CMap K) (t c : Int) (a b : K × K) :
    ((t, c), a, b) ∈ shared rows cols m m' ↔
      Valid rows cols t c ∧ m t c = some a ∧ m' t c = some b := by
  rw [shared, List.mem_filterMap]
  constructor
  · rintro ⟨⟨t', c'⟩, htc, he⟩
    rw [mem_allCorners] at htc
    simp only at he
    split at he
    · next a' b' h1 h2 =>
      simp only [Option.some.injEq, Prod.mk.injEq] at he
      obtain ⟨⟨rfl, rfl⟩, rfl, rfl⟩ := he
      exact ⟨htc, h1, h2⟩
    · simp at he
  · rintro ⟨hv, h1, h2⟩
    exact ⟨(t, c), (mem_allCorners _ _ _ _).mpr hv, by simp [h1, h2]⟩

/-- C09: `common_measurements` of two grids of the same dimensions appends, in the first
grid's order, exactly the corners held by both, with both keypoints and the first grid's
board position, aligned index by index. -/
theorem C09_common_measurements (ts ts' : Int) (rows cols : Nat)
    (size spacing size' spacing' : K)
    (ops ops' : List (Op K)) (hv : ∀ op ∈ ops, OpValid rows cols op)
    (hv' : ∀ op ∈ ops', OpValid rows cols op) (g g' : Grid K)
    (hg : run (new ts rows cols size spacing) ops = .ok g)
    (hg' : run (new ts' rows cols size' spacing') ops' = .ok g') (out : Common K) :
    let l := shared rows cols (Spec.run ops) (Spec.run ops')
    commonMeasurements g g' out = .ok ⟨out.tagIds ++ l.map (fun e => e.1.1),
      out.corners ++ l.map (fun e => e.1.2), out.kpsI ++ l.map (fun e => e.2.1),
      out.kpsJ ++ l.map (fun e => e.2.2),
      out.points ++ l.map (fun e => boardPoint cols size spacing e.1.1.toNat e.1.2.toNat)⟩ := by
  obtain ⟨g1, hg1, hr⟩ := run_rel ts rows cols size spacing ops hv
  obtain ⟨g2, hg2, hr'⟩ := run_rel ts' rows cols size' spacing' ops' hv'
  rw [hg] at hg1; cases hg1
  rw [hg'] at hg2; cases hg2
  intro l
  by_cases hd : g.detected = true ∧ g'.detected = true
  · exact common_core hr.toCore hr'.toCore hd.1 hd.2 out
  · have hd' : g.detected = false ∨ g'.detected = false := by
      simp only [not_and_or, Bool.not_eq_true] at hd; exact hd
    have hl : l = [] := by
      rw [List.eq_nil_iff_forall_not_mem]
      rintro ⟨⟨t, c⟩, a, b⟩ hm
      obtain ⟨hvv, h1, h2⟩ := (C09_shared_list _ _ _ _ _ _ _ _).mp hm
      rcases hd' with hd' | hd'
      · have := C02_not_detected_empty ts rows cols size spacing ops hv g hg hd' t c hvv
        rw [hr.toCore.has_eq hvv, h1] at this
        simp at this
      · have := C02_not_detected_empty ts' rows cols size' spacing' ops' hv' g' hg' hd' t c hvv
        rw [hr'.toCore.has_eq hvv, h2] at this
        simp at this
    rw [commonMeasurements, if_pos hd', hl]
    simp

/-! ## C06 -/

/-- C06 for a grid with at least one corner: loading the saved file into a default grid, or
into a grid of the same dimensions with arbitrary contents, succeeds and restores the
timestamp, dimensions, sizes (to 6 decimals), the corners and their keypoints (to 10
decimals); `detected` is set and the counter is the number of corners.  `p6`, `p10` are
arbitrary print-and-parse functions.  (Missing: a grid without corners, for which it is
false, `C06_empty_refuted`; and a counter that was off before, which is not reproduced.) -/
theorem C06_save_load_partial (p6 p10 : K → K) (ts : Int) (rows cols : Nat) (size spacing : K)
    (ops : List (Op K)) (hv : ∀ op ∈ ops, OpValid rows cols op) (g : Grid K)
    (hg : run (new ts rows cols size spacing) ops = .ok g)
    (hne : ∃ t c, Valid rows cols t c ∧ (Spec.run ops t c).isSome) (g0 : Grid K)
    (h0 : g0.data = [] ∨ g0.data.length = rows * cols * 4) :
    ∃ file g', save p6 p10 g = .ok file ∧ load g0 file = .ok g' ∧
      g'.init = true ∧ g'.timestamp = ts ∧ g'.tagRows = rows ∧ g'.tagCols = cols ∧
      g'.tagSize = p6 size ∧ g'.tagSpacing = p6 spacing ∧ g'.detected = true ∧
      g'.nbDetections = Spec.size rows cols (Spec.run ops) ∧
      ∀ t c, Valid rows cols t c →
        has g' t c = .ok (Spec.run ops t c).isSome ∧
        ∀ kp, Spec.run ops t c = some kp →
          keypoint g' t c = .ok (p10 kp.1, p10 kp.2) ∧
          readRow g'.data (t * 4 + c) = .ok (let p := boardPoint cols size spacing t.toNat c.toNat
            ⟨1, p10 kp.1, p10 kp.2, p6 p.1, p6 p.2.1, p6 p.2.2⟩) := by
  obtain ⟨g1, hg1, hr⟩ := run_rel ts rows cols size spacing ops hv
  rw [hg] at hg1; cases hg1
  have hne' : held rows cols (Spec.run ops) ≠ [] := by
    obtain ⟨t, c, hvv, hs⟩ := hne
    obtain ⟨kp, hkp⟩ := Option.isSome_iff_exists.mp hs
    exact List.ne_nil_of_mem ((mem_held _ _ _ _ _ _).mpr ⟨hvv, hkp⟩)
  obtain ⟨file, g', hs, hl, hi, hL⟩ := load_save p6 p10 hr hne' g0 h0
  refine ⟨file, g', hs, hl, hi, hL.hts, hL.hrows, hL.hcols, hL.hsize, hL.hspacing, hL.hdet, hL.nb, ?_⟩
  intro t c hvv
  have hrow := hL.row hvv
  have hc4 : (t.toNat * 4 + c.toNat) / 4 = t.toNat := by obtain ⟨_, _, _, _⟩ := hvv; omega
  have hc5 : (t.toNat * 4 + c.toNat) % 4 = c.toNat := by obtain ⟨_, _, _, _⟩ := hvv; omega
  refine ⟨?_, fun kp hkp => ⟨?_, ?_⟩⟩
  · rw [has, if_pos hi, hrow, ok_bind]
    cases hm : Spec.run ops t c <;> simp [rowLoaded, zeroRow]
  · rw [keypoint, hrow, ok_bind, hkp]; simp [rowLoaded]
  · rw [hrow, hkp]; simp only [rowLoaded, hc4, hc5]

/-- C06 is false for a grid without corners: the file has no data line, so a fresh grid
loaded from it has dimensions 0 x 0 and timestamp 0 whatever was saved. -/
theorem C06_empty_refuted (p6 p10 : K → K) (ts : Int) (rows cols : Nat) (size spacing : K) :
    ∃ file, save p6 p10 (new ts rows cols size spacing) = .ok file ∧
      ∃ g', load (default : Grid K) file = .ok g' ∧ g'.tagRows = 0 ∧ g'.tagCols = 0 ∧
        g'.timestamp = 0 ∧ g'.data = [] :=
  ⟨[], by simp [save, new], _, rfl, rfl, rfl, rfl, rfl⟩

/-! ## C10 -/

/-- C10, safety: whatever numbers the random generator returns, if `sample(n)` returns then
it returns `min(n, nb_detections)` different corners of the grid, each with its own keypoint
and board position. -/
theorem C10_sample_safe (ts : Int) (rows cols : Nat) (size spacing : K) (ops : List (Op K))
    (hv : ∀ op ∈ ops, OpValid rows cols op) (g : Grid K)
    (hg : run (new ts rows cols size spacing) ops = .ok g) (rand : Nat → Nat) (fuel n : Nat)
    (out : Meas K) (hs : sample g rand fuel n = .ok out) :
    ∃ L : List ((Int × Int) × (K × K)),
      out = ⟨L.map (fun e => e.1.1), L.map (fun e => e.1.2), L.map (fun e => e.2),
        L.map (fun e => boardPoint cols size spacing e.1.1.toNat e.1.2.toNat)⟩ ∧
      (L.map Prod.fst).Nodup ∧ (∀ e ∈ L, e ∈ held rows cols (Spec.run ops)) ∧
      (L.length : Int) = min g.nbDetections n := by
  obtain ⟨g1, hg1, hr⟩ := run_rel ts rows cols size spacing ops hv
  rw [hg] at hg1; cases hg1
  rw [sample, if_pos hr.hinit] at hs
  have hnb := hr.nb
  split_ifs at hs with h0
  · simp only [Except.ok.injEq] at hs
    exact ⟨[], by rw [← hs]; rfl, by simp, by simp, by simp; omega⟩
  · obtain ⟨tags, htags, _, hmem⟩ := hr.toCore.tagIds_eq
    rw [htags, ok_bind] at hs
    have htv : ∀ t ∈ tags, 0 ≤ t ∧ t < (rows * cols : Nat) := by
      intro t ht
      obtain ⟨⟨⟨t', c⟩, kp⟩, he, rfl⟩ := (hmem t).mp ht
      have := ((mem_held _ _ _ _ _ _).mp he).1
      exact ⟨this.1, by exact_mod_cast this.2.1⟩
    cases hl : sampleLoop g rand tags n fuel ⟨Meas.empty, [], 0⟩ with
    | error e => rw [hl] at hs; simp at hs
    | ok s =>
      rw [hl] at hs
      simp only [ok_bind, pure_eq_ok, Except.ok.injEq] at hs
      obtain ⟨L, hi, hlen⟩ := loop_safe hr.toCore rand tags htv n fuel _ s []
        (sinv_init _ _ _ _) (by simp) hl
      refine ⟨L, by rw [← hs, hi.out]; rfl, hi.nodup, hi.sub, ?_⟩
      rw [hlen, sampleTarget, if_neg (by omega)]
      omega

/-- C10, termination: if the random numbers are fair (every tag/corner combination keeps
coming up) and the counter is right (no corner was added twice), `sample` returns. -/
theorem C10_sample_returns (ts : Int) (rows cols : Nat) (size spacing : K) (ops : List (Op K))
    (hv : ∀ op ∈ ops, OpValid rows cols op) (hfresh : overwrites ops = 0) (g : Grid K)
    (hg : run (new ts rows cols size spacing) ops = .ok g) (rand : Nat → Nat) (hf : Fair rand)
    (n : Nat) : ∃ fuel out, sample g rand fuel n = .ok out := by
  obtain ⟨g1, hg1, hr⟩ := run_rel ts rows cols size spacing ops hv
  rw [hg] at hg1; cases hg1
  have hnb := hr.nb
  rw [hfresh, Nat.add_zero, ← spec_size] at hnb
  by_cases h0 : g.nbDetections = 0
  · exact ⟨0, Meas.empty, by rw [sample, if_pos hr.hinit, if_pos h0]⟩
  · obtain ⟨tags, htags, _, hmem⟩ := hr.toCore.tagIds_eq
    have htgt : sampleTarget g n ≤ (held rows cols (Spec.run ops)).length := by
      rw [sampleTarget, if_neg (by omega), hnb, Int.toNat_natCast, Spec.size]
      exact min_le_left _ _
    obtain ⟨fuel, s, hl⟩ := loop_live hr.toCore rand hf tags hmem n htgt
    exact ⟨fuel, s.out, by rw [sample, if_pos hr.hinit, if_neg h0, htags, ok_bind, hl]; rfl⟩

end generic

/-! ## C05, metric part -/

section metric
variable {K : Type} [Field K] [LinearOrder K] [IsStrictOrderedRing K]

/-- C05: on a board with positive tag size and nonnegative spacing, different corners are
at different positions; every corner lies in the rectangle from the origin to
`(cols*size + (cols-1)*size*spacing, rows*size + (rows-1)*size*spacing)`, in the plane z=0;
and `center()` is the midpoint of that rectangle. -/
theorem C05_geometry (g : Grid K) (hs : 0 < g.tagSize) (hsp : 0 ≤ g.tagSpacing)
    (hr : 0 < g.tagRows) (hc : 0 < g.tagCols) :
    let w : K := g.tagCols * g.tagSize + (g.tagCols - 1) * (g.tagSize * g.tagSpacing)
    let h : K := g.tagRows * g.tagSize + (g.tagRows - 1) * (g.tagSize * g.tagSpacing)
    let pos := boardPoint g.tagCols g.tagSize g.tagSpacing
    (∀ t c, t < g.tagRows * g.tagCols → c < 4 →
      0 ≤ (pos t c).1 ∧ (pos t c).1 ≤ w ∧ 0 ≤ (pos t c).2.1 ∧ (pos t c).2.1 ≤ h ∧
        (pos t c).2.2 = 0) ∧
    center g = (w / 2, h / 2) ∧
    (0 < g.tagSpacing → ∀ t c t' c', c < 4 → c' < 4 →
      pos t c = pos t' c' → t = t' ∧ c = c') := by
  intro w h pos
  have hpitch : 0 ≤ g.tagSize * (1 + g.tagSpacing) := by positivity
  refine ⟨?_, ?_, ?_⟩
  · intro t c ht hc4
    have hj : t % g.tagCols + 1 ≤ g.tagCols := Nat.mod_lt _ hc
    have hi : t / g.tagCols + 1 ≤ g.tagRows :=
      (Nat.div_lt_iff_lt_mul hc).mpr ht
    have hjK : ((t % g.tagCols : Nat) : K) + 1 ≤ g.tagCols := by exact_mod_cast hj
    have hiK : ((t / g.tagCols : Nat) : K) + 1 ≤ g.tagRows := by exact_mod_cast hi
    have hj0 : (0 : K) ≤ ((t % g.tagCols : Nat) : K) := Nat.cast_nonneg _
    have hi0 : (0 : K) ≤ ((t / g.tagCols : Nat) : K) := Nat.cast_nonneg _
    simp only [pos, boardPoint]
    generalize ((t % g.tagCols : Nat) : K) = j at *
    generalize ((t / g.tagCols : Nat) : K) = i at *
    have e1 : 0 ≤ j * (g.tagSize * (1 + g.tagSpacing)) := mul_nonneg hj0 hpitch
    have e2 : 0 ≤ i * (g.tagSize * (1 + g.tagSpacing)) := mul_nonneg hi0 hpitch
    have e3 : j * (g.tagSize * (1 + g.tagSpacing)) + g.tagSize ≤ w := by
      have : 0 ≤ (g.tagCols - 1 - j) * (g.tagSize * (1 + g.tagSpacing)) :=
        mul_nonneg (by linarith) hpitch
      simp only [w]; nlinarith
    have e4 : i * (g.tagSize * (1 + g.tagSpacing)) + g.tagSize ≤ h := by
      have : 0 ≤ (g.tagRows - 1 - i) * (g.tagSize * (1 + g.tagSpacing)) :=
        mul_nonneg (by linarith) hpitch
      simp only [h]; nlinarith
    refine ⟨?_, ?_, ?_, ?_, trivial⟩ <;> split_ifs <;> linarith
  · simp only [center, w, h]
    ext <;> simp only <;> ring
  · intro hsp' t c t' c' hc4 hc4' he
    simp only [pos, boardPoint, Prod.mk.injEq] at he
    obtain ⟨hx, hy, _⟩ := he
    have hlt : g.tagSize < g.tagSize * (1 + g.tagSpacing) := by nlinarith
    have key : ∀ (a b : Nat) (x y : K), (x = 0 ∨ x = g.tagSize) → (y = 0 ∨ y = g.tagSize) →
        (a : K) * (g.tagSize * (1 + g.tagSpacing)) + x = b * (g.tagSize * (1 + g.tagSpacing)) + y →
        a = b ∧ x = y := by
      intro a b x y hx hy hab
      rcases lt_trichotomy a b with hlt' | heq | hlt'
      · have : (a : K) + 1 ≤ b := by exact_mod_cast hlt'
        have : ((a : K) + 1) * (g.tagSize * (1 + g.tagSpacing)) ≤ b * (g.tagSize * (1 + g.tagSpacing)) :=
          mul_le_mul_of_nonneg_right this hpitch
        rcases hx with rfl | rfl <;> rcases hy with rfl | rfl <;> exfalso <;> nlinarith
      · subst heq; exact ⟨rfl, by linarith⟩
      · have : (b : K) + 1 ≤ a := by exact_mod_cast hlt'
        have : ((b : K) + 1) * (g.tagSize * (1 + g.tagSpacing)) ≤ a * (g.tagSize * (1 + g.tagSpacing)) :=
          mul_le_mul_of_nonneg_right this hpitch
        rcases hx with rfl | rfl <;> rcases hy with rfl | rfl <;> exfalso <;> nlinarith
    obtain ⟨hj, hdx⟩ := key _ _ _ _ (by split_ifs <;> simp) (by split_ifs <;> simp) hx
    obtain ⟨hi, hdy⟩ := key _ _ _ _ (by split_ifs <;> simp) (by split_ifs <;> simp) hy
    refine ⟨?_, ?_⟩
    · rw [← Nat.div_add_mod t g.tagCols, ← Nat.div_add_mod t' g.tagCols, hi, hj]
    · have hs0 : g.tagSize ≠ 0 := ne_of_gt hs
      have h1 : c = 0 ∨ c = 1 ∨ c = 2 ∨ c = 3 := by omega
      have h2 : c' = 0 ∨ c' = 1 ∨ c' = 2 ∨ c' = 3 := by omega
      clear hx hy key hi hj
      revert hdx hdy
      rcases h1 with rfl | rfl | rfl | rfl <;> rcases h2 with rfl | rfl | rfl | rfl <;>
        simp [hs0, hs0.symm]

/-! ## C64: grid comparison -/

theorem rowDist_nonneg (a b : Row K) : 0 ≤ rowDist a b := by unfold rowDist; positivity

theorem rowDist_self (a : Row K) : rowDist a a = 0 := by simp [rowDist]

theorem sum_le_of_mem (l : List (Row K × Row K)) (p : Row K × Row K) (hp : p ∈ l) :
    rowDist p.1 p.2 ≤ (l.map (fun p => rowDist p.1 p.2)).sum := by
  induction l with
  | nil => simp at hp
  | cons q l ih =>
    simp only [List.map_cons, List.sum_cons]
    have hn : 0 ≤ (l.map (fun p => rowDist p.1 p.2)).sum :=
      List.sum_nonneg (by simp only [List.mem_map]; rintro x ⟨p, _, rfl⟩; exact rowDist_nonneg _ _)
    rcases List.mem_cons.mp hp with rfl | hp
    · linarith
    · have := ih hp; have := rowDist_nonneg q.1 q.2; linarith

/-- C64: an initialised grid is `equal` to itself. -/
theorem C64_equal_refl (g : Grid K) (hi : g.init = true) : equal g g = .ok true := by
  have hz : ((g.data.zip g.data).map (fun p => rowDist p.1 p.2)).sum = 0 := by
    apply List.sum_eq_zero
    intro x hx
    rw [List.mem_map] at hx
    obtain ⟨p, hp, rfl⟩ := hx
    have : p.1 = p.2 := by
      obtain ⟨i, hi, rfl⟩ := List.mem_iff_getElem.mp hp
      simp
    rw [this, rowDist_self]
  rw [equal, if_neg (by simp [hi]), if_neg (by simp), if_neg (by simp), hz]
  simp

/-- C64: `equal` answers yes only for grids with the same timestamp, dimensions, sizes,
`detected` flag and counter, whose rows carry the same flags and keypoints and board points
that differ by less than 1e-6 in every coordinate. -/
theorem C64_equal_sound (g g1 : Grid K) (h : equal g g1 = .ok true) :
    g.timestamp = g1.timestamp ∧ g.tagRows = g1.tagRows ∧ g.tagCols = g1.tagCols ∧
    g.tagSize = g1.tagSize ∧ g.tagSpacing = g1.tagSpacing ∧ g.detected = g1.detected ∧
    g.nbDetections = g1.nbDetections ∧ g.data.length = g1.data.length ∧
    ∀ i (h1 : i < g.data.length) (h2 : i < g1.data.length),
      g.data[i].flag = g1.data[i].flag ∧
      |g.data[i].kx - g1.data[i].kx| < 1 / 1000000 ∧ |g.data[i].ky - g1.data[i].ky| < 1 / 1000000 ∧
      |g.data[i].px - g1.data[i].px| < 1 / 1000000 ∧ |g.data[i].py - g1.data[i].py| < 1 / 1000000 ∧
      |g.data[i].pz - g1.data[i].pz| < 1 / 1000000 := by
  unfold equal at h
  split_ifs at h with h1 h2 h3
  · cases h
  simp only [not_or, not_not] at h2 h3
  obtain ⟨a1, a2, a3, a4, a5, a6, a7⟩ := h2
  refine ⟨a1, a2, a3, a4, a5, a6, a7, h3, ?_⟩
  intro i hi1 hi2
  simp only [Except.ok.injEq, decide_eq_true_eq] at h
  have hmem : (g.data[i], g1.data[i]) ∈ g.data.zip g1.data := by
    rw [List.mem_iff_getElem]
    exact ⟨i, by simp; omega, by simp⟩
  have hle := sum_le_of_mem _ _ hmem
  simp only at hle
  generalize g.data[i] = a at *
  generalize g1.data[i] = b at *
  have hlt : rowDist a b < (1 / 1000000) ^ 2 := lt_of_le_of_lt hle h
  unfold rowDist at hlt
  have sq : ∀ x : K, x ^ 2 < (1 / 1000000) ^ 2 → |x| < 1 / 1000000 := by
    intro x hx
    exact abs_lt_of_sq_lt_sq hx (by norm_num)
  have n1 := sq_nonneg ((a.flag : K) - b.flag)
  have n2 := sq_nonneg (a.kx - b.kx)
  have n3 := sq_nonneg (a.ky - b.ky)
  have n4 := sq_nonneg (a.px - b.px)
  have n5 := sq_nonneg (a.py - b.py)
  have n6 := sq_nonneg (a.pz - b.pz)
  refine ⟨?_, sq _ (by linarith), sq _ (by linarith), sq _ (by linarith), sq _ (by linarith),
    sq _ (by linarith)⟩
  have hf := sq _ (show ((a.flag : K) - b.flag) ^ 2 < (1 / 1000000) ^ 2 by linarith)
  rw [← Int.cast_sub, ← Int.cast_abs] at hf
  have h1 : ((|a.flag - b.flag| : Int) : K) < ((1 : Int) : K) := by
    refine lt_trans hf ?_; norm_num
  have h2 : |a.flag - b.flag| < 1 := by exact_mod_cast h1
  have h3 := abs_nonneg (a.flag - b.flag)
  have h4 : |a.flag - b.flag| = 0 := by omega
  have := abs_eq_zero.mp h4
  omega

end metric

/-! ## Witnesses: the hypotheses are met, and the refutations -/

/-- A history with an add, an overwrite, a removal and a whole-tag removal on a 2x2 grid. -/
def wOps : List (Op ℚ) :=
  [.add 0 1 (10, 20), .add 3 2 (30, 40), .add 1 0 (5, 6), .remove 0 1, .add 2 3 (7, 8), .removeTag 1]

example : (∀ op ∈ wOps, OpValid 2 2 op) ∧ overwrites wOps = 0 ∧
    ((Spec.run wOps) 3 2).isSome ∧ Valid 2 2 3 2 ∧ ((Spec.run wOps) 0 1) = none := by
  refine ⟨?_, ?_, ?_, ?_, ?_⟩
  · simp [wOps, OpValid, Valid]
  · simp [wOps, overwrites, trackStep, Spec.step, none_]
  · simp [wOps, Spec.run, Spec.step, none_]
  · simp [Valid]
  · simp [wOps, Spec.run, Spec.step, none_]

example : ∃ g, run (new 5 2 2 (1/2 : ℚ) (1/10)) wOps = .ok g :=
  let ⟨g, hg, _⟩ := run_rel 5 2 2 (1/2 : ℚ) (1/10) wOps (by simp [wOps, OpValid, Valid])
  ⟨g, hg⟩

/-- C02, full statement, is false: adding a corner twice counts it twice; the corner is
then removed and the empty grid still says one corner is detected. -/
theorem C02_counter_refuted :
    ∃ (ops : List (Op ℚ)) (g : Grid ℚ), (∀ op ∈ ops, OpValid 1 1 op) ∧
      run (new 0 1 1 1 0) ops = .ok g ∧ g.nbDetections = 1 ∧ g.detected = true ∧
      ∀ t c, Valid 1 1 t c → has g t c = .ok false := by
  let ops : List (Op ℚ) := [.add 0 0 (1, 1), .add 0 0 (2, 2), .remove 0 0]
  have hv : ∀ op ∈ ops, OpValid 1 1 op := by simp [ops, OpValid, Valid]
  obtain ⟨g, hg, hr⟩ := run_rel 0 1 1 (1 : ℚ) 0 ops hv
  have hnone : ∀ t c, Spec.run ops t c = none := by
    intro t c
    simp only [ops, Spec.run, List.foldl_cons, List.foldl_nil, Spec.step, none_]
    split_ifs <;> rfl
  have hm : Spec.run ops = none_ := by funext t c; exact hnone t c
  have ho : overwrites ops = 1 := by simp [ops, overwrites, trackStep, Spec.step, none_]
  have hnb : g.nbDetections = 1 := by
    rw [hr.nb, hm, countP_none, ho]; rfl
  refine ⟨ops, g, hv, hg, hnb, by rw [hr.det, hnb]; rfl, ?_⟩
  intro t c hvv
  rw [hr.toCore.has_eq hvv, hm]; rfl

/-- C10: `sample` on such a grid divides by zero: the counter says one corner is there but
the list of tags to draw from is empty. -/
theorem C10_sample_div_zero_refuted :
    ∃ (ops : List (Op ℚ)) (g : Grid ℚ), (∀ op ∈ ops, OpValid 1 1 op) ∧
      run (new 0 1 1 1 0) ops = .ok g ∧
      ∀ rand fuel n, sample g rand (fuel + 1) (n + 1) = .error .divZero := by
  let ops : List (Op ℚ) := [.add 0 0 (1, 1), .add 0 0 (2, 2), .remove 0 0]
  have hv : ∀ op ∈ ops, OpValid 1 1 op := by simp [ops, OpValid, Valid]
  obtain ⟨g, hg, hr⟩ := run_rel 0 1 1 (1 : ℚ) 0 ops hv
  have hm : Spec.run ops = none_ := by
    funext t c
    simp only [ops, Spec.run, List.foldl_cons, List.foldl_nil, Spec.step, none_]
    split_ifs <;> rfl
  have ho : overwrites ops = 1 := by simp [ops, overwrites, trackStep, Spec.step, none_]
  have hnb : g.nbDetections = 1 := by
    rw [hr.nb, hm, countP_none, ho]; rfl
  refine ⟨ops, g, hv, hg, ?_⟩
  intro rand fuel n
  obtain ⟨tags, htags, _, hmem⟩ := hr.toCore.tagIds_eq
  have hheld : held 1 1 (Spec.run ops) = [] := held_nil_of_count (by rw [hm, countP_none])
  have htn : tags = [] := by
    rw [List.eq_nil_iff_forall_not_mem]
    intro t ht
    obtain ⟨e, he, _⟩ := (hmem t).mp ht
    rw [hheld] at he; exact absurd he (by simp)
  subst htn
  rw [sample, if_pos hr.hinit, if_neg (by omega), htags, ok_bind, sampleLoop, if_pos]
  · simp [sampleStep]
  · simp [Meas.empty, sampleTarget, hnb]

/-- C07: the `detected` flag of a grid emptied by `intersect` stays set. -/
theorem C07_detected_refuted :
    ∃ (ops ops' : List (Op ℚ)) (g g' a b : Grid ℚ),
      (∀ op ∈ ops, OpValid 1 1 op) ∧ (∀ op ∈ ops', OpValid 1 1 op) ∧
      run (new 0 1 1 1 0) ops = .ok g ∧ run (new 0 1 1 1 0) ops' = .ok g' ∧
      intersect g g' = .ok (a, b) ∧ a.detected = true ∧ a.nbDetections = 0 ∧
      ∀ t c, Valid 1 1 t c → has a t c = .ok false := by
  let ops : List (Op ℚ) := [.add 0 0 (1, 1)]
  let ops' : List (Op ℚ) := [.add 0 1 (1, 1)]
  have hv : ∀ op ∈ ops, OpValid 1 1 op := by simp [ops, OpValid, Valid]
  have hv' : ∀ op ∈ ops', OpValid 1 1 op := by simp [ops', OpValid, Valid]
  obtain ⟨g, hg, hr⟩ := run_rel 0 1 1 (1 : ℚ) 0 ops hv
  obtain ⟨g', hg', hr'⟩ := run_rel 0 1 1 (1 : ℚ) 0 ops' hv'
  obtain ⟨a, b, e, ca, _, da, _⟩ := intersect_core hr.toCore hr'.toCore
  have hm : restrict (Spec.run ops) (Spec.run ops') = none_ := by
    funext t c
    simp only [restrict, ops, ops', Spec.run, List.foldl_cons, List.foldl_nil, Spec.step, none_]
    by_cases h1 : t = 0 ∧ c = 1
    · have : ¬ (t = 0 ∧ c = 0) := by omega
      simp [this]
    · simp [h1]
  have ho : overwrites ops = 0 := by simp [ops, overwrites, trackStep, Spec.step, none_]
  refine ⟨ops, ops', g, g', a, b, hv, hv', hg, hg', e, ?_, ?_, ?_⟩
  · rw [da, hr.det, hr.nb, ho]
    have : heldAt (Spec.run ops) 0 = true := by
      simp [heldAt, ops, Spec.run, Spec.step]
    have : 0 < (List.range (1 * 1 * 4)).countP (heldAt (Spec.run ops)) := by
      rw [List.countP_pos_iff]; exact ⟨0, by simp, this⟩
    simp only [decide_eq_true_eq]; omega
  · rw [ca.nb, hm, countP_none, ho]; rfl
  · intro t c hvv
    rw [ca.has_eq hvv, hm]; rfl

/-- C08/C09 witness: two grids made by different histories on the same board. -/
example : List.Forall₂ (MadeBy (K := ℚ) 1 1) [[.add 0 0 (1, 1)], []]
    [(run (new 0 1 1 1 0) [.add 0 0 ((1 : ℚ), 1)]).toOption.getD default, new 0 1 1 1 0] := by
  obtain ⟨g, hg, _⟩ := run_rel 0 1 1 (1 : ℚ) 0 [.add 0 0 (1, 1)] (by simp [OpValid, Valid])
  rw [hg]
  refine List.Forall₂.cons ⟨by simp [OpValid, Valid], 0, 1, 0, hg⟩
    (List.Forall₂.cons ⟨by simp, 0, 1, 0, rfl⟩ List.Forall₂.nil)

/-- C10 witness: a fair stream exists. -/
theorem fair_exists : ∃ rand, Fair rand := by
  -- iteration `j` draws `(unpair j).1`-th pair code, so every code comes up infinitely often
  refine ⟨fun k => if k % 2 = 0 then (Nat.unpair (Nat.unpair (k / 2)).1).1
    else (Nat.unpair (Nat.unpair (k / 2)).1).2, ?_⟩
  intro len a b N ha hb
  refine ⟨Nat.pair (Nat.pair a b) N, Nat.right_le_pair _ _, ?_, ?_⟩
  · have h1 : 2 * Nat.pair (Nat.pair a b) N % 2 = 0 := by omega
    have h2 : 2 * Nat.pair (Nat.pair a b) N / 2 = Nat.pair (Nat.pair a b) N := by omega
    simp only [h1, h2, if_true, Nat.unpair_pair]
    exact Nat.mod_eq_of_lt ha
  · have h1 : ¬ (2 * Nat.pair (Nat.pair a b) N + 1) % 2 = 0 := by omega
    have h2 : (2 * Nat.pair (Nat.pair a b) N + 1) / 2 = Nat.pair (Nat.pair a b) N := by omega
    simp only [h1, h2, if_false, Nat.unpair_pair]
    exact Nat.mod_eq_of_lt hb

/-- C05 witness: a board that meets the hypotheses of `C05_geometry`. -/
example : (0 : ℚ) < (new 0 6 6 (88/1000 : ℚ) (3/10)).tagSize ∧
    (0 : ℚ) < (new 0 6 6 (88/1000 : ℚ) (3/10)).tagSpacing := by simp [new]

end Yac.AprilGrid
