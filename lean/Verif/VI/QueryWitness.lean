import Verif.VI.RateProps
import Verif.VI.Witness

/-!
Concrete cases for C87 to C90: the history of `VI/Witness.lean` with a call of `solve()`.
-/

namespace Yac.VI.Witness

open Yac.AprilGrid (Grid)
open Yac.VI

theorem hist_of_runR {s t : S} {l : List (Call ℕ Unit)} (h : RunR env s l t) :
    Hist env s (l.map Act.call) t := by
  induction h with
  | nil => exact .nil
  | snoc _ hr hc ih =>
    rw [List.map_append]
    exact .snoc ih (fun he => hr (by injection he)) (.call hc)

/-- The first corner of every view has a long error to the left, the second one to the right. -/
def errs (f : Fid ℕ) : ℝ × ℝ := if f.tag = 0 then (-100, -100) else (1, 1)

/-- Residuals of the same size everywhere. -/
def ones (_ : Res ℕ) : Option (List ℝ) := some [1, 2]

/-- A history with `solve()` in the middle: `C88_filter_partial`, `C89_solve_partial` apply. -/
theorem h3 : Hist env s0 (cs.map Act.call) s3 := hist_of_runR r3

example : ∃ u, Hist env s0 (cs.map Act.call ++ [.solve true 1 errs]) u := by
  obtain ⟨u, c, k1, k2, rest, h, -⟩ :=
    C89_solve_partial env true 2 false false _ s3 h3 true 1 errs (isFixed s3)
  exact ⟨u, .snoc h3 (by rintro ⟨⟩) (.solve h)⟩

/-- The view whose measurements the examples below speak of. -/
theorem view0 : ∃ v f f', s3.views[0]? = some v ∧ v.fids = [f, f'] ∧ f.tag = 0 ∧ f'.tag = 3 := by
  have h : (s3.views.map (fun v => v.fids.map Fid.tag)) = [[0, 3], [0, 3]] := by decide +kernel
  match hv : s3.views with
  | [] => rw [hv] at h; simp at h
  | v :: l =>
    rw [hv] at h
    simp only [List.map_cons, List.cons.injEq] at h
    match hf : v.fids with
    | [f, f'] =>
      rw [hf] at h
      simp only [List.map_cons, List.map_nil, List.cons.injEq, and_true] at h
      exact ⟨v, f, f', rfl, hf, h.1.1, h.1.2⟩
    | [] => rw [hf] at h; simp at h
    | [_] => rw [hf] at h; simp at h
    | _ :: _ :: _ :: _ => rw [hf] at h; simp at h

/-- `C88_negative_refuted`: an error of length `100 √2` is kept. -/
example : ∃ v f u n v', s3.views[0]? = some v ∧ f ∈ v.fids ∧ errs f = (-100, -100) ∧
    filterViews errs 1 s3 = .ok (u, n) ∧ u.views[0]? = some v' ∧ f ∈ v'.fids := by
  obtain ⟨v, f, f', hv, hf, h0, -⟩ := view0
  have he : errs f = (-100, -100) := by simp [errs, h0]
  obtain ⟨u, n, v', h1, h2, h3⟩ := C88_negative_refuted env true 2 false false _ s3 h3 errs 1
    (by norm_num) 0 v hv f (by simp [hf]) (by rw [he]; norm_num) (by rw [he]; norm_num)
  exact ⟨v, f, u, n, v', hv, by simp [hf], he, h1, h2, h3⟩

/-- `C88_equal_refuted`: two errors of the same length, both lost. -/
example : ∃ u n v', filterViews (fun _ => ((3 : ℝ), (4 : ℝ))) 5 s3 = .ok (u, n) ∧
    u.views[0]? = some v' ∧ ∃ f, f ∉ v'.fids := by
  obtain ⟨v, f, f', hv, hf, -, -⟩ := view0
  obtain ⟨u, n, v', h1, h2, h3⟩ := C88_equal_refuted env true 2 false false _ s3 h3
    (fun _ => ((3 : ℝ), (4 : ℝ))) 5 (len (3, 4)) 0 v hv (by simp [hf]) (fun _ _ => rfl) f
    (by simp [hf]) (Or.inl (by norm_num))
  exact ⟨u, n, v', h1, h2, f, h3⟩

/-- `C88_sound`: a case in which a measurement is above the limit. -/
example : ∃ v f, v ∈ s3.views ∧ f ∈ v.fids ∧ Above (fun _ => ((3 : ℝ), (4 : ℝ))) 5 v f := by
  obtain ⟨v, f, f', hv, hf, -, -⟩ := view0
  refine ⟨v, f, List.mem_of_getElem? hv, by simp [hf], 0, ⟨by simp [hf], len (3, 4), ?_, ?_⟩,
    Or.inl (by norm_num)⟩
  · simp [hf]; ring
  · simp [hf]

/-- `C87_cost_partial`, `C87_newest_refuted`: the newest view has measurements. -/
example : ∃ c, cost ones s3 = .ok c ∧ c < halfSquares ones (s3.prob.rblocks.map Prod.snd) := by
  have h : (s3.views.getLast?.map (fun v => v.fids.length)) = some 2 := by decide +kernel
  obtain ⟨v, hv, hl⟩ := Option.map_eq_some_iff.1 h
  obtain ⟨f, hf⟩ : ∃ f, f ∈ v.fids := by
    match hfs : v.fids with
    | [] => rw [hfs] at hl; simp at hl
    | f :: _ => exact ⟨f, by simp⟩
  exact C87_newest_refuted env true 2 false false _ s3 h3 ones (fun _ => rfl) v hv f hf [1, 2] 1
    rfl (by simp) (by norm_num)

/-- `C87_cost_partial`, the fatal case. -/
example : cost (fun _ => none) s3 = .error .fatal := by
  obtain ⟨l, -, hm, -, h4⟩ := C87_cost_partial env true 2 false false _ s3 h3 (fun _ => none)
  refine h4 ?_
  have h : (s3.prob.rblocks.map Prod.snd).any (fun r => match r with | .imu _ => true | _ => false)
      = true := by decide +kernel
  obtain ⟨r, hr, hi⟩ := List.any_eq_true.1 h
  refine ⟨r, (hm r).2 ⟨hr, ?_⟩, rfl⟩
  rintro ⟨_, f, _, _, rfl⟩
  simp at hi

/-- `C89_delay_refuted`: a history with a fixed delay. -/
example : Hist env (St.new true 2 false true) [.call (.camera 0 false false)]
    (val (call env (St.new true 2 false true) (.camera 0 false false))) :=
  .snoc (as := []) .nil (by rintro ⟨⟩) (.call (val_eq (by decide +kernel)))

/-- `C90_rate`: views at 8 and 15 ns; the IMU buffer has more samples. -/
example : cameraRate id s3 = .ok (some (1000000000 / 7)) ∧ imuRate id s3 = .ok (some 1000000000) := by
  decide +kernel

/-- `C90_finite`. -/
example : ∃ r : ℚ, cameraRate id s3 = .ok (some r) ∧ 0 < r ∧ r ≤ 1000000000 / (7 : Int) ∧
    1000000000 / (7 : Int) ≤ r :=
  C90_finite s3 [8, 15] _ (Or.inl ⟨by decide +kernel, rfl⟩) (by decide) 7 7 (by decide)
    (by decide)

/-- `C90_poses`. -/
example : ∃ t, RunO env s0 cs2 t ∧ t.views.length = 2 ∧ good (imuPose t 15) = true ∧
    good (imuPose t 16) = false :=
  ⟨val (execO s0 cs2), runO_of_exec (val_eq (by decide +kernel)), by decide +kernel,
    by decide +kernel, by decide +kernel⟩

/-- `C90_no_view_refuted`. -/
example : s0.views = [] := rfl

/-- `C90_errors`. -/
example : s3.views ≠ [] ∧ (reprojErrors errs s3).map Prod.fst = [0] := by
  have h : s3.views ≠ [] := by decide +kernel
  refine ⟨h, ?_⟩
  rw [(C90_errors env true 2 false false _ s3 h3 h errs).1]
  decide +kernel

end Yac.VI.Witness
