import Verif.Mocap.Steps
import Mathlib.Algebra.Order.Field.Basic
import Mathlib.Tactic.Linarith

/-!
# C91, C92, C93: calibrating a camera against a motion-capture system

Specification: `Spec.lean` (`Created`, `Ran`, `Sound`, `Tried`, `Trials`, `Verdict`).
-/

namespace Yac.Mocap

open Yac.AprilGrid (Grid MadeBy)
open Yac.Solver (CBook)

variable {K : Type} [Field K] [LinearOrder K] {rows cols : Nat}

/-! ## C91: the problem and the views that are kept -/

/-- C91: construction.  If there is a pose for every grid and the grids have different
timestamps, then it fails for lack of an initial guess exactly if no grid can be estimated;
otherwise the calibrator starts without views and with the given intrinsics, target pose and
mocap poses, the extrinsics of the last grid that can be estimated, and exactly the grids
that can be estimated. -/
theorem C91_create (fixCam fixPoses fixFid : Bool) (gainMin : K)
    (estimate : (Fin 8 → K) → (Fin 7 → K) → (Fin 7 → K) → Grid K → Option (Fin 7 → K))
    (cam : Fin 8 → K) (fid : Fin 7 → K) (grids : List (Grid K)) (poses : List (Fin 7 → K))
    (hl : grids.length ≤ poses.length) (hnd : (grids.map Grid.timestamp).Nodup) :
    ((∀ gp ∈ grids.zip poses, estimate cam fid gp.2 gp.1 = none) →
      create fixCam fixPoses fixFid gainMin estimate cam fid grids poses = .error .uninit) ∧
    (∀ pre g p T post, grids.zip poses = pre ++ (g, p) :: post → estimate cam fid p g = some T →
      (∀ gp ∈ post, estimate cam fid gp.2 gp.1 = none) →
      ∃ s, create fixCam fixPoses fixFid gainMin estimate cam fid grids poses = .ok s ∧
        s.fixCam = fixCam ∧ s.fixPoses = fixPoses ∧ s.fixFid = fixFid ∧ s.gainMin = gainMin ∧
        s.infoK = 0 ∧ s.entropyK = 0 ∧ s.views = [] ∧ s.viewTs = [] ∧
        s.est.cam = cam ∧ s.est.fid = fid ∧ s.est.ext = T ∧
        (∀ gp ∈ grids.zip poses, SMap.find gp.1.timestamp s.est.poses = some gp.2) ∧
        (∀ t, t ∉ grids.map Grid.timestamp → SMap.find t s.est.poses = none) ∧
        (∀ t g, SMap.find t s.grids = some g ↔
          ∃ p, (g, p) ∈ grids.zip poses ∧ g.timestamp = t ∧ (estimate cam fid p g).isSome)) := by
  obtain ⟨k1, k2⟩ := create_ok (rows := 0) (cols := 0) fixCam fixPoses fixFid gainMin estimate cam fid grids poses hl hnd
  refine ⟨fun h => k1 (by rw [List.filterMap_eq_nil_iff]; exact h), ?_⟩
  intro pre g p T post hz he hpost
  obtain ⟨s, e1, _, e⟩ := k2 T (by
    rw [hz, List.filterMap_append, List.filterMap_cons]
    simp only [he]
    rw [show post.filterMap (fun gp => estimate cam fid gp.2 gp.1) = [] by
      rw [List.filterMap_eq_nil_iff]; exact hpost]
    simp)
  exact ⟨s, e1, e⟩

theorem addPoses_fail : ∀ (gs : List (Grid K)) (ps : List (Fin 7 → K)) (s : Cal K),
    (ps.length < gs.length ∨ ¬ (gs.map Grid.timestamp).Nodup ∨ ∃ g ∈ gs, (SMap.find g.timestamp s.est.poses).isSome) →
    addPoses s gs ps = .error .oob := by
  intro gs
  induction gs with
  | nil => intro ps s h; simp at h
  | cons g gs ih =>
    intro ps s h
    cases ps with
    | nil => rfl
    | cons T ps =>
      unfold addPoses
      by_cases hg : (SMap.find g.timestamp s.est.poses).isSome
      · have h1 : addPose s g.timestamp T = .error .oob := by unfold addPose; rw [if_pos hg]
        rw [h1]; rfl
      · have h1 : addPose s g.timestamp T = .ok { s with est := { s.est with poses := SMap.set g.timestamp T s.est.poses }, solver := s.solver.addParam (.pose g.timestamp) } := by
          unfold addPose; rw [if_neg hg]
        rw [h1, AprilGrid.ok_bind]
        apply ih
        · rcases h with h | h | ⟨a, ha, h⟩
          · left; simpa using h
          · rw [List.map_cons, List.nodup_cons, not_and_or, not_not] at h
            rcases h with h | h
            · right; right
              obtain ⟨a, ha, hat⟩ := List.mem_map.mp h
              refine ⟨a, ha, ?_⟩
              simp only
              rw [hat, SMap.find_set]; simp
            · exact Or.inr (Or.inl h)
          · rcases List.mem_cons.mp ha with rfl | ha
            · exact absurd h hg
            · right; right
              refine ⟨a, ha, ?_⟩
              simp only
              rw [SMap.find_set]
              split_ifs
              · rfl
              · exact h

/-- C91: without a pose for every grid, or with two grids of the same time, the construction reads past the poses or
frees a pose that is registered. -/
theorem C91_mismatch (fixCam fixPoses fixFid : Bool) (gainMin : K)
    (estimate : (Fin 8 → K) → (Fin 7 → K) → (Fin 7 → K) → Grid K → Option (Fin 7 → K))
    (cam : Fin 8 → K) (fid : Fin 7 → K) (grids : List (Grid K)) (poses : List (Fin 7 → K))
    (h : poses.length < grids.length ∨ ¬ (grids.map Grid.timestamp).Nodup) :
    create fixCam fixPoses fixFid gainMin estimate cam fid grids poses = .error .oob := by
  unfold create
  simp only
  rw [addPoses_fail grids poses _ (h.imp id Or.inl)]
  rfl

/-- C91: whatever views are added, tried, filtered and removed, in any order, the views, the
poses and the problem handed to the optimiser agree. -/
theorem C91_sound (env : Env K) {s₀ s : Cal K} (h0 : Created rows cols s₀) (h : Ran env s₀ s) :
    Sound rows cols s :=
  (h.wf h0.fresh.1).sound

/-- C91: no such call fails. -/
theorem C91_total (env : Env K) {s₀ s : Cal K} (h0 : Created rows cols s₀) (h : Ran env s₀ s) :
    (∀ ts g, SMap.find ts s.grids = some g → SMap.find ts s.views = none →
      (SMap.find ts s.est.poses).isSome →
      (∃ s', addView s g = .ok s') ∧ ∃ s', nbvStep env s ts = .ok s') ∧
    (∀ ts, (SMap.find ts s.views).isSome → ∃ s', removeView s ts = .ok s') ∧
    (∃ r, filterAllViews env s = .ok r) ∧
    (s.views ≠ [] → ∃ r, filterLastView env s = .ok r) ∧
    (∃ s', solveWith env.few s = .ok s') ∧ (∃ s', solveWith env.full s = .ok s') := by
  have w := h.wf h0.fresh.1
  refine ⟨fun ts g hg hv hp => ⟨?_, ?_⟩, fun ts hv => ?_, ?_, fun hne => ?_, ?_, ?_⟩
  · obtain ⟨v, b, a, _⟩ := w.addView hg hv hp; exact ⟨_, a⟩
  · obtain ⟨s', _, a, _⟩ := w.step env (by rw [hg]; rfl) hv hp; exact ⟨s', a⟩
  · obtain ⟨b, a, _⟩ := w.removeView hv; exact ⟨_, a⟩
  · obtain ⟨s', a, _⟩ := w.filterAll env; exact ⟨_, a⟩
  · have hvt : s.viewTs ≠ [] := by
      intro he
      have := w.sound.number
      rw [he] at this
      exact hne (List.length_eq_zero_iff.mp (by simpa using this))
    unfold filterLastView
    rw [List.getLast?_eq_some_getLast hvt]
    simp only
    have := (w.tsMem _).mp (List.getLast_mem hvt)
    obtain ⟨v, hv⟩ := Option.isSome_iff_exists.mp this
    rw [hv]
    obtain ⟨v', b, a, _⟩ := w.filterStep (env.resid s.est) (env.thresh (residuals env s)) hv 0
    exact ⟨_, a⟩
  · exact ⟨_, (w.solveWith env.few).1⟩
  · exact ⟨_, (w.solveWith env.full).1⟩

/-- The views that were not rejected. -/
def remaining (l : List Int) (vs : List Verdict) : List Int :=
  ((l.zip vs).filter (fun tv => tv.2 ≠ .rejected)).map Prod.fst

theorem Trials.remaining {env : Env K} {s s' : Cal K} {l : List Int} {vs : List Verdict}
    (h : Trials rows cols env s l s' vs) :
    vs.length = l.length ∧ s'.viewTs = s.viewTs ++ remaining l vs ∧ s'.grids = s.grids := by
  induction h with
  | nil => exact ⟨rfl, by simp [Mocap.remaining], rfl⟩
  | @cons s t s' ts l v vs h1 _ ih =>
    obtain ⟨f1, _, _, _, _, f6, _⟩ := h1.frame
    refine ⟨by simp [ih.1], ?_, ih.2.2.trans f1⟩
    rw [ih.2.1, f6]
    by_cases hv : v = .rejected
    · simp [hv, Mocap.remaining]
    · simp [hv, Mocap.remaining]

theorem stamps_nodup {s : Cal K} (h : SMap.Sorted s.grids) : (nbvStamps s).Nodup := by
  rw [nbvStamps]
  exact (SMap.sorted_nodup h).sublist (List.Sublist.map _ List.filter_sublist)

/-- C91: next-best-view calibration of a new calibrator, whatever the order in which the
views are tried, the outcome of the optimiser and the information: it fails exactly if
nothing was detected; otherwise every grid in which something was detected is tried once,
as `Tried` says, the first four are kept without asking and no later one is, the views that
remain are those that were not rejected, in the order in which they were tried, and
everything is solved once more. -/
theorem C91_nbv (env : Env K) (order : List Int → List Int) {s : Cal K} (h : Created rows cols s)
    (ho : ∀ l, (order l).Perm l) :
    (solveNbv env order s = .error .fatal ↔ ∀ ts g, SMap.find ts s.grids = some g → g.detected = false) ∧
    ((∃ ts g, SMap.find ts s.grids = some g ∧ g.detected = true) →
      ∃ l t vs s', (∀ ts, ts ∈ l ↔ ∃ g, SMap.find ts s.grids = some g ∧ g.detected = true) ∧ l.Nodup ∧
        Trials rows cols env s l t vs ∧
        vs.take 4 = List.replicate (min 4 l.length) .early ∧ Verdict.early ∉ vs.drop 4 ∧
        t.viewTs = remaining l vs ∧
        s' = { t with est := freed t (env.full t) } ∧ Sound rows cols s' ∧
        solveNbv env order s = .ok s') := by
  obtain ⟨w, hv, hvt, _, _, hp⟩ := h.fresh
  have hmem : ∀ ts, ts ∈ nbvStamps s ↔ ∃ g, SMap.find ts s.grids = some g ∧ g.detected = true := by
    intro ts
    rw [nbvStamps, List.mem_map]
    constructor
    · rintro ⟨⟨t, g⟩, h1, rfl⟩
      rw [List.mem_filter] at h1
      exact ⟨g, (SMap.find_eq_some w.gsorted).mpr h1.1, h1.2⟩
    · rintro ⟨g, h1, h2⟩
      exact ⟨(ts, g), List.mem_filter.mpr ⟨SMap.mem_of_find h1, h2⟩, rfl⟩
  have hok : nbvStamps s ≠ [] → ∃ l t vs s', (∀ ts, ts ∈ l ↔ ∃ g, SMap.find ts s.grids = some g ∧
      g.detected = true) ∧ l.Nodup ∧ Trials rows cols env s l t vs ∧
        vs.take 4 = List.replicate (min 4 l.length) .early ∧ Verdict.early ∉ vs.drop 4 ∧
        t.viewTs = remaining l vs ∧
        s' = { t with est := freed t (env.full t) } ∧ Sound rows cols s' ∧
        solveNbv env order s = .ok s' := by
    intro hne
    have hm' : ∀ ts ∈ order (nbvStamps s), (SMap.find ts s.grids).isSome := by
      intro ts hts
      obtain ⟨g, hg, _⟩ := (hmem ts).mp ((ho _).mem_iff.mp hts)
      rw [hg]; rfl
    obtain ⟨t, vs, a1, a2, a3, a4⟩ := WF.trials env (order (nbvStamps s)) s w
      ((ho _).nodup_iff.mpr (stamps_nodup w.gsorted)) hm' (by rw [hvt]; simp) (fun ts hts => hp ts (hm' ts hts))
    obtain ⟨b1, b2⟩ := a3.solveWith env.full
    rw [hvt] at a4
    obtain ⟨e1, e2⟩ := EarlyFrom.spec vs 0 a4
    obtain ⟨r1, r2, _⟩ := a2.remaining
    refine ⟨order (nbvStamps s), t, vs, _, fun ts => by rw [(ho _).mem_iff, hmem],
      (ho _).nodup_iff.mpr (stamps_nodup w.gsorted), a2, ?_, e2, ?_, rfl, b2.sound, ?_⟩
    · rw [← r1]; exact e1
    · rw [r2, hvt]; rfl
    · rw [solveNbv, if_neg hne, a1, AprilGrid.ok_bind, b1]
  constructor
  · constructor
    · intro he
      by_contra hc
      push Not at hc
      obtain ⟨ts, g, h1, h2⟩ := hc
      obtain ⟨_, _, _, _, _, _, _, _, _, _, _, _, h9⟩ := hok (by
        intro hn
        have := (hmem ts).mpr ⟨g, h1, by simpa using h2⟩
        rw [hn] at this; simp at this)
      rw [he] at h9; simp at h9
    · intro hall
      have : nbvStamps s = [] := by
        rw [List.eq_nil_iff_forall_not_mem]
        intro ts hts
        obtain ⟨g, h1, h2⟩ := (hmem ts).mp hts
        rw [hall ts g h1] at h2; simp at h2
      rw [solveNbv, if_pos this]
  · rintro ⟨ts, g, h1, h2⟩
    refine hok ?_
    intro hn
    have := (hmem ts).mpr ⟨g, h1, h2⟩
    rw [hn] at this; simp at this

/-- C91: every view that is kept after the first four lowers the stored log-determinant by
at least twice the configured gain, and nothing else changes it: with the initial value 0
it is at most `-2 * gain * kept` at the end, so only so many views are kept. -/
theorem C91_gain [IsStrictOrderedRing K] {env : Env K} {s s' : Cal K} {l : List Int} {vs : List Verdict}
    (h : Trials rows cols env s l s' vs) :
    s'.infoK ≤ s.infoK - 2 * s.gainMin * (vs.count .kept : K) ∧
    (Verdict.kept ∉ vs → s'.infoK = s.infoK ∧ s'.entropyK = s.entropyK) := by
  induction h with
  | nil => simp
  | @cons s t s' ts l v vs h1 _ ih =>
    have hgm := h1.frame.2.1
    rw [hgm] at ih
    have hst : ∀ t', Staged rows cols env s ts t' → t'.infoK = s.infoK ∧ t'.entropyK = s.entropyK := by
      rintro t' ⟨g, v, _, _, _, _, h, _⟩
      rw [h]; exact ⟨rfl, rfl⟩
    cases h1 with
    | early t' hs _ =>
      have e1 : (solved env t').infoK = s.infoK := (hst t' hs).1
      have e2 : (solved env t').entropyK = s.entropyK := (hst t' hs).2
      rw [e1, e2] at ih
      simpa using ih
    | unknown t' hs _ _ =>
      have e1 : (solved env t').infoK = s.infoK := (hst t' hs).1
      have e2 : (solved env t').entropyK = s.entropyK := (hst t' hs).2
      simp only [e1, e2] at ih
      simpa using ih
    | rejected t' i b hs _ _ _ =>
      have e1 : (solved env t').infoK = s.infoK := (hst t' hs).1
      have e2 : (solved env t').entropyK = s.entropyK := (hst t' hs).2
      simp only [e1, e2] at ih
      simpa using ih
    | kept t' i hs _ _ hg =>
      refine ⟨?_, by simp⟩
      have h2 := ih.1
      simp only at h2
      have h3 : s.infoK - i.1 ≥ 2 * s.gainMin := by
        rw [le_div_iff₀ (by norm_num : (0 : K) < 2)] at hg
        linarith
      rw [List.count_cons_self]
      push_cast
      linarith [mul_add (2 * s.gainMin) (vs.count .kept : K) 1]

/-! ## C92: a view that is rejected -/

/-- C92 (part): a rejected view leaves seven of the eight intrinsics, the target pose, the
extrinsics and all other mocap poses, and the stored information, as they were; its pose and
its view are gone.  The last intrinsic keeps the value of the rejected solution
(`C92_intrinsic_refuted`), and the other views may have lost corners
(`C92_corners_refuted`). -/
theorem C92_reject_partial {env : Env K} {s s' : Cal K} {ts : Int}
    (h : Tried rows cols env s ts s' .rejected) :
    (∀ i : Fin 8, i.val < 7 → s'.est.cam i = s.est.cam i) ∧ s'.est.fid = s.est.fid ∧
    s'.est.ext = s.est.ext ∧ s'.est.poses = SMap.erase ts s.est.poses ∧
    s'.infoK = s.infoK ∧ s'.entropyK = s.entropyK ∧ s'.viewTs = s.viewTs ∧
    SMap.find ts s'.views = none ∧
    (∀ u w, u ≠ ts → SMap.find u s.views = some w → ∃ w', SMap.find u s'.views = some w' ∧
      w'.resFns.Sublist w.resFns) ∧
    (s.fixCam = true → s'.est.cam = s.est.cam) := by
  cases h with
  | rejected t i b hs hn hi hg =>
    obtain ⟨g, v, k1, k2, k3, k4, k5, k6, k7⟩ := hs
    have he : t.est = s.est := by rw [k5]
    refine ⟨?_, ?_, ?_, ?_, ?_, ?_, rfl, ?_, ?_, ?_⟩
    · intro i hi'
      simp only [putBack, if_pos hi', he]
    · simp only [putBack, he]
    · simp only [putBack, he]
    · simp only [he]
    · show t.infoK = _; rw [k5]
    · show t.entropyK = _; rw [k5]
    · simp only [SMap.find_erase, if_pos]
    · intro u w hu hw
      obtain ⟨w', h1, h2⟩ := k7 u w (by rw [SMap.find_set, if_neg hu]; exact hw)
      exact ⟨w', by simp only [SMap.find_erase, if_neg hu]; exact h1, h2.sub⟩
    · intro hf
      have hf' : t.fixCam = true := by rw [k5]; exact hf
      funext i
      simp only [putBack, solved, freed, hf', if_true, he, ite_self]

/-- C92: if the information cannot be computed, the view stays although the estimates go
back to what they were before it was solved for. -/
theorem C92_unknown {env : Env K} {s s' : Cal K} {ts : Int}
    (h : Tried rows cols env s ts s' .unknown) :
    (∀ i : Fin 8, i.val < 7 → s'.est.cam i = s.est.cam i) ∧ s'.est.fid = s.est.fid ∧
    s'.est.ext = s.est.ext ∧ s'.est.poses = s.est.poses ∧
    s'.infoK = s.infoK ∧ s'.entropyK = s.entropyK ∧ s'.viewTs = s.viewTs ++ [ts] ∧
    (SMap.find ts s'.views).isSome := by
  cases h with
  | unknown t hs hn hi =>
    obtain ⟨g, v, k1, k2, k3, k4, k5, k6, k7⟩ := hs
    have he : t.est = s.est := by rw [k5]
    refine ⟨?_, ?_, ?_, ?_, ?_, ?_, ?_, ?_⟩
    · intro i hi'
      simp only [putBack, if_pos hi', he]
    · simp only [putBack, he]
    · simp only [putBack, he]
    · simp only [putBack, he]
    · show t.infoK = _; rw [k5]
    · show t.entropyK = _; rw [k5]
    · show t.viewTs = _; rw [k5]
    · obtain ⟨w', h1, _⟩ := k7 ts v (by rw [SMap.find_set, if_pos rfl])
      show (SMap.find ts t.views).isSome
      rw [h1]; rfl

/-! ## C93: calibrating with all views, and what the user fixed -/

/-- C93: calibrating a new calibrator with all views never fails: there is one view for
every grid, with all its corners; after a first solve the corners beyond one common
threshold are removed from views and problem, and everything is solved again. -/
theorem C93_solve_partial (env : Env K) {s : Cal K} (h : Created rows cols s) :
    ∃ s1 s2 s' : Cal K, solve env s = .ok s' ∧ Sound rows cols s' ∧
      s1 = { s with viewTs := s.grids.map Prod.fst, views := s1.views, solver := s1.solver,
                    next := s1.next } ∧
      s1.views.map Prod.fst = s.grids.map Prod.fst ∧
      (∀ ts g, SMap.find ts s.grids = some g →
        ∃ v, SMap.find ts s1.views = some v ∧ Holds rows cols g (corners v)) ∧
      s2 = { s1 with est := freed s1 (env.full s1), views := s2.views, solver := s2.solver } ∧
      s2.views.map Prod.fst = s1.views.map Prod.fst ∧
      (∀ ts v, SMap.find ts s1.views = some v → ∃ v', SMap.find ts s2.views = some v' ∧
        Reduced rows cols (env.resid s2.est)
          (env.thresh (evaluated (env.resid s2.est) s1.views)) v v') ∧
      s' = { s2 with est := freed s2 (env.full s2) } := by
  obtain ⟨w, hv, hvt, _, _, hp⟩ := h.fresh
  obtain ⟨s1, a1, a2, a3, a4, a5⟩ := WF.addAll s.grids s w (SMap.sorted_nodup w.gsorted) (by
    intro tg htg
    have := (SMap.find_eq_some w.gsorted).mpr htg
    exact ⟨this, by rw [hvt]; simp, hp _ (by rw [this]; rfl)⟩)
  obtain ⟨b1, b2⟩ := a2.solveWith env.full
  obtain ⟨s2, c1, c2, c3, c4, c5⟩ := b2.filterAll env
  obtain ⟨d1, d2⟩ := c2.solveWith env.full
  have he2 : s2.est = freed s1 (env.full s1) := by rw [c3]
  refine ⟨s1, s2, _, ?_, d2.sound, ?_, ?_, ?_, c3, c4, ?_, rfl⟩
  · rw [solve, a1, AprilGrid.ok_bind, b1, AprilGrid.ok_bind, c1, AprilGrid.ok_bind]
    exact d1
  · conv_lhs => rw [a3]
    rw [hvt]; rfl
  · refine SMap.keys_eq a2.vsorted w.gsorted (fun t => ?_)
    by_cases ht : t ∈ s.grids.map Prod.fst
    · obtain ⟨⟨t', g⟩, hm, rfl⟩ := List.mem_map.mp ht
      obtain ⟨v, hv', _⟩ := a4 _ hm
      rw [hv', (SMap.find_eq_some w.gsorted).mpr hm]; rfl
    · rw [a5 t ht, hv, SMap.find_none_of_not_mem ht]; rfl
  · intro ts g hg
    obtain ⟨v, h1, h2⟩ := a4 (ts, g) (SMap.mem_of_find hg)
    exact ⟨v, h1, by rw [h2]; exact holds_of_made (w.gkey ts g hg).2⟩
  · intro ts v hv'
    obtain ⟨v', h1, h2⟩ := c5 ts v hv'
    rw [he2]
    exact ⟨v', h1, h2.reduced⟩

/-- What the user fixed, as it was in `s₀`. -/
structure Fixed (s₀ s : Cal K) : Prop where
  fixCam : s.fixCam = s₀.fixCam
  fixFid : s.fixFid = s₀.fixFid
  fixPoses : s.fixPoses = s₀.fixPoses
  cam : s₀.fixCam = true → s.est.cam = s₀.est.cam
  fid : s₀.fixFid = true → s.est.fid = s₀.est.fid
  poses : s₀.fixPoses = true → ∀ ts p, SMap.find ts s.est.poses = some p →
    SMap.find ts s₀.est.poses = some p

theorem Fixed.freed {s₀ s : Cal K} (h : Fixed s₀ s) (o : Est K) :
    Fixed s₀ { s with est := Mocap.freed s o } := by
  refine ⟨h.fixCam, h.fixFid, h.fixPoses, fun hc => ?_, fun hc => ?_, fun hc ts p hp => ?_⟩
  · simp only [Mocap.freed, h.fixCam, hc, if_true]; exact h.cam hc
  · simp only [Mocap.freed, h.fixFid, hc, if_true]; exact h.fid hc
  · have h1 : SMap.find ts (Mocap.freed s o).poses = some p := hp
    rw [find_freed, h.fixPoses, hc] at h1
    exact h.poses hc ts p (by simpa using h1)

theorem Fixed.of_est {s₀ s s' : Cal K} (h : Fixed s₀ s) (h1 : s'.fixCam = s.fixCam)
    (h2 : s'.fixFid = s.fixFid) (h3 : s'.fixPoses = s.fixPoses) (h4 : s'.est = s.est) : Fixed s₀ s' :=
  ⟨h1.trans h.fixCam, h2.trans h.fixFid, h3.trans h.fixPoses, fun hc => by rw [h4]; exact h.cam hc,
    fun hc => by rw [h4]; exact h.fid hc, fun hc => by rw [h4]; exact h.poses hc⟩

theorem Fixed.putBack {s₀ s t : Cal K} (h : Fixed s₀ s) (ht : Fixed s₀ t) (he : s.est.cam = t.est.cam)
    (hf : s.fixCam = t.fixCam) (env : Env K) :
    s₀.fixCam = true → (Mocap.putBack t.est (solved env t).est).cam = s₀.est.cam := by
  intro hc
  have h1 := (ht.freed (env.few (cacheEstimates t))).cam hc
  funext i
  simp only [Mocap.putBack]
  split_ifs
  · rw [ht.cam hc]
  · exact congrFun h1 i

theorem Tried.fixed {env : Env K} {s₀ s s' : Cal K} {ts : Int} {vd : Verdict} (h0 : Fixed s₀ s)
    (h : Tried rows cols env s ts s' vd) : Fixed s₀ s' := by
  have key : ∀ t, Staged rows cols env s ts t → Fixed s₀ t ∧ t.est = s.est ∧ t.fixCam = s.fixCam := by
    rintro t ⟨g, v, _, _, _, _, h, _⟩
    have e1 : t.est = s.est := by rw [h]
    have e2 : t.fixCam = s.fixCam := by rw [h]
    exact ⟨h0.of_est e2 (by rw [h]) (by rw [h]) e1, e1, e2⟩
  cases h with
  | early t hs _ => exact ((key t hs).1.freed _).of_est rfl rfl rfl rfl
  | unknown t hs _ _ =>
    obtain ⟨k1, k2, k3⟩ := key t hs
    refine ⟨k1.fixCam, k1.fixFid, k1.fixPoses, ?_, k1.fid, k1.poses⟩
    exact Fixed.putBack h0 k1 (by rw [k2]) k3.symm env
  | rejected t i b hs _ _ _ =>
    obtain ⟨k1, k2, k3⟩ := key t hs
    refine ⟨k1.fixCam, k1.fixFid, k1.fixPoses, ?_, k1.fid, fun hc u p hp => ?_⟩
    · exact Fixed.putBack h0 k1 (by rw [k2]) k3.symm env
    · have hp' : SMap.find u (SMap.erase ts t.est.poses) = some p := hp
      rw [SMap.find_erase] at hp'
      split_ifs at hp' with hu
      exact k1.poses hc u p hp'
  | kept t i hs _ _ _ => exact ((key t hs).1.freed _).of_est rfl rfl rfl rfl

/-- C93: intrinsics, target pose and mocap poses the user fixed never change, whatever views
are added, tried, filtered and removed and whatever the optimiser answers. -/
theorem C93_fixed (env : Env K) {s₀ s : Cal K} (h0 : Created rows cols s₀) (h : Ran env s₀ s) :
    (s₀.fixCam = true → s.est.cam = s₀.est.cam) ∧
    (s₀.fixFid = true → s.est.fid = s₀.est.fid) ∧
    (s₀.fixPoses = true → ∀ ts p, SMap.find ts s.est.poses = some p →
      SMap.find ts s₀.est.poses = some p) := by
  have w0 := h0.fresh.1
  suffices hf : Fixed s₀ s from ⟨hf.cam, hf.fid, hf.poses⟩
  induction h with
  | start => exact ⟨rfl, rfl, rfl, fun _ => rfl, fun _ => rfl, fun _ _ _ h => h⟩
  | add hr hg hv hp hs ih =>
    obtain ⟨v, b, a1, a2, _⟩ := (hr.wf w0).addView hg hv hp
    rw [hs] at a1; cases a1
    exact ih.of_est rfl rfl rfl rfl
  | attempt hr hg hv hp hs ih =>
    obtain ⟨s', vd, a1, a2, _⟩ := (hr.wf w0).step env hg hv hp
    rw [hs] at a1; cases a1
    exact a2.fixed ih
  | @remove s _ ts hr hv hs ih =>
    obtain ⟨b, a1, _⟩ := (hr.wf w0).removeView hv
    rw [hs] at a1; cases a1
    refine ⟨ih.fixCam, ih.fixFid, ih.fixPoses, ih.cam, ih.fid, fun hc u p hp => ?_⟩
    have hp' : SMap.find u (SMap.erase ts s.est.poses) = some p := hp
    rw [SMap.find_erase] at hp'
    split_ifs at hp' with hu
    exact ih.poses hc u p hp'
  | filter hr hs ih =>
    obtain ⟨s', a1, _, a3, _⟩ := (hr.wf w0).filterAll env
    rw [hs] at a1; cases a1
    exact ih.of_est (by rw [a3]) (by rw [a3]) (by rw [a3]) (by rw [a3])
  | @last s _ _ hr hs ih =>
    unfold filterLastView at hs
    cases hl : s.viewTs.getLast? with
    | none => rw [hl] at hs; simp at hs
    | some ts =>
      rw [hl] at hs
      simp only at hs
      cases hv : SMap.find ts s.views with
      | none => rw [hv] at hs; simp at hs
      | some v =>
        rw [hv] at hs
        simp only at hs
        obtain ⟨v', b, a1, _⟩ := (hr.wf w0).filterStep (env.resid s.est) (env.thresh (residuals env s)) hv 0
        rw [hs] at a1; cases a1
        exact ih.of_est rfl rfl rfl rfl
  | few hr hs ih =>
    obtain ⟨a1, _⟩ := (hr.wf w0).solveWith env.few
    rw [hs] at a1; cases a1
    exact ih.freed _
  | full hr hs ih =>
    obtain ⟨a1, _⟩ := (hr.wf w0).solveWith env.full
    rw [hs] at a1; cases a1
    exact ih.freed _

/-- C93: removing outliers takes from every view exactly the corners beyond the common
threshold, and answers with how many there were; for the last view alone, with its own. -/
theorem C93_filter (env : Env K) {s₀ s : Cal K} (h0 : Created rows cols s₀) (h : Ran env s₀ s) :
    (∃ s', filterAllViews env s = .ok (s', ((s.views.flatMap (fun tv => tv.2.resFns)).countP
        (fun r => isOutlier (env.resid s.est) (env.thresh (evaluated (env.resid s.est) s.views)) r))) ∧
      s' = { s with views := s'.views, solver := s'.solver } ∧
      s'.views.map Prod.fst = s.views.map Prod.fst ∧
      (∀ ts v, SMap.find ts s.views = some v → ∃ v', SMap.find ts s'.views = some v' ∧
        Reduced rows cols (env.resid s.est) (env.thresh (evaluated (env.resid s.est) s.views)) v v')) ∧
    (∀ l ts v, s.viewTs = l ++ [ts] → SMap.find ts s.views = some v →
      ∃ s' v', filterLastView env s = .ok (s', v.resFns.countP (fun r => isOutlier (env.resid s.est)
          (env.thresh (evaluated (env.resid s.est) s.views)) r)) ∧
        s' = { s with views := SMap.set ts v' s.views, solver := s'.solver } ∧
        Reduced rows cols (env.resid s.est) (env.thresh (evaluated (env.resid s.est) s.views)) v v') := by
  have w := h.wf h0.fresh.1
  constructor
  · obtain ⟨s', a1, _, a3, a4, a5⟩ := w.filterAll env
    refine ⟨s', ?_, a3, a4, fun ts v hv => ?_⟩
    · rw [a1, List.countP_eq_length_filter]; rfl
    · obtain ⟨v', h1, h2⟩ := a5 ts v hv
      exact ⟨v', h1, h2.reduced⟩
  · intro l ts v hl hv
    obtain ⟨v', b, a1, _, a3⟩ := w.filterStep (env.resid s.est) (env.thresh (residuals env s)) hv 0
    refine ⟨{ s with views := SMap.set ts v' s.views, solver := b }, v', ?_, rfl, a3.reduced⟩
    have hlast : s.viewTs.getLast? = some ts := by rw [hl]; simp
    unfold filterLastView
    rw [hlast]
    simp only
    rw [hv]
    simp only
    rw [a1, List.countP_eq_length_filter, Nat.zero_add]
    rfl

end Yac.Mocap
