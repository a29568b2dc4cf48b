import Verif.Image.Props
import Verif.VI.Witness

/-! # C119 for `calib_camera_t`, and concrete histories -/

namespace Yac.Image

open Yac.AprilGrid (Grid Row Shot Tag Board detectAll detectThread ok_bind error_bind foldlM_concat)
open Yac.VI (St VEnv bindOk)

theorem cam_holds {b : Board} {srt : List Tag → List Tag} : ∀ (h : List (Int × Shot × Bool)) {s : CSt},
    runCam b srt ⟨[], []⟩ h = .ok s → Holds s.imgBuf (h.map fun e => (e.1, e.2.1)) := by
  intro h
  induction h using List.reverseRecOn with
  | nil => intro s e; injection e with e; subst e; exact Holds.nil
  | append_singleton l x ih =>
    intro s e
    unfold runCam at e
    rw [foldlM_concat] at e
    obtain ⟨u, h1, h2⟩ := bindOk e
    have hh := (ih h1).put x.1 x.2.1
    obtain ⟨⟨v, r⟩, h3, h4⟩ := bindOk h2
    injection h4 with h4
    subst h4
    rw [List.map_append, List.map_cons, List.map_nil]
    unfold addCamImage at h3
    by_cases hr : ready x.2.1.ts (put u.imgBuf x.1 x.2.1) = false
    · rw [if_pos hr] at h3
      simp only [Except.ok.injEq, Prod.mk.injEq] at h3
      rw [← h3.1]
      exact hh
    · rw [if_neg hr] at h3
      obtain ⟨gs, -, h5⟩ := bindOk h3
      simp only [Except.ok.injEq, Prod.mk.injEq] at h5
      rw [← h5.1]
      exact hh

theorem touch_spec (buf : List (Int × Shot)) : ∀ (gs : List (Int × Grid ℚ)), SMap.Sorted gs →
    SMap.Sorted (touch buf gs) ∧ ∀ cam, SMap.find cam (touch buf gs) =
      match SMap.find cam gs with
      | some g => some g
      | none => if cam ∈ buf.map Prod.fst then some AprilGrid.default else none := by
  induction buf with
  | nil => intro gs hs; exact ⟨hs, fun cam => by simp only [touch, List.foldl_nil, List.map_nil, List.not_mem_nil, if_false]; cases SMap.find cam gs <;> rfl⟩
  | cons e buf ih =>
    intro gs hs
    unfold touch
    rw [List.foldl_cons]
    cases he : SMap.find e.1 gs with
    | some g0 =>
      obtain ⟨i1, i2⟩ := ih gs hs
      refine ⟨i1, fun cam => ?_⟩
      rw [show List.foldl _ gs buf = touch buf gs from rfl, i2]
      cases hc : SMap.find cam gs with
      | some g => rfl
      | none =>
        have : cam ≠ e.1 := by rintro rfl; rw [he] at hc; cases hc
        have hm : cam ∈ (e :: buf).map Prod.fst ↔ cam ∈ buf.map Prod.fst := by simp [List.map_cons, this]
        simp only [hm]
    | none =>
      obtain ⟨i1, i2⟩ := ih (SMap.set e.1 AprilGrid.default gs) (SMap.set_sorted _ _ _ hs)
      refine ⟨i1, fun cam => ?_⟩
      rw [show List.foldl _ (SMap.set e.1 AprilGrid.default gs) buf = touch buf (SMap.set e.1 AprilGrid.default gs) from rfl, i2, SMap.find_set]
      by_cases hc : cam = e.1
      · subst hc
        simp [he]
      · rw [if_neg hc]
        cases SMap.find cam gs with
        | some g => rfl
        | none =>
          have hm : cam ∈ (e :: buf).map Prod.fst ↔ cam ∈ buf.map Prod.fst := by simp [List.map_cons, hc]
          simp only [hm]

/-- C119 for the camera calibrator: after any sequence of images, an image is answered with `true` exactly when no
camera that has sent an image has only older ones; then the detections are those of the latest image of every camera,
and otherwise they stay.  When the images are shown, a camera without detection gets an empty grid. -/
theorem C119_camera (b : Board) (srt : List Tag → List Tag) (h : List (Int × Shot × Bool)) (s : CSt)
    (hr : runCam b srt ⟨[], []⟩ h = .ok s) (cam : Int) (sh : Shot) (imshow : Bool) (found : Int → Grid ℚ)
    (hf : ∀ cam' sh', lastOf ((h.map fun e => (e.1, e.2.1)) ++ [(cam, sh)]) cam' = some sh' →
      detectThread b srt sh'.sub sh'.ts sh'.im sh'.tags = .ok (found cam')) :
    ∃ t r, addCamImage b srt s cam sh imshow = .ok (t, r) ∧
      (r = true ↔ ∀ cam' sh', lastOf ((h.map fun e => (e.1, e.2.1)) ++ [(cam, sh)]) cam' = some sh' → sh.ts ≤ sh'.ts) ∧
      (r = false → t.gridBuf = s.gridBuf) ∧
      (r = true → SMap.Sorted t.gridBuf ∧ ∀ cam', SMap.find cam' t.gridBuf =
        match lastOf ((h.map fun e => (e.1, e.2.1)) ++ [(cam, sh)]) cam' with
        | none => none
        | some _ => if (found cam').detected = true then some (found cam')
            else if imshow = true then some AprilGrid.default else none) := by
  have hh := (cam_holds h hr).put cam sh
  unfold addCamImage
  by_cases h2 : ready sh.ts (put s.imgBuf cam sh) = false
  · rw [if_pos h2]
    refine ⟨_, _, rfl, ?_, fun _ => rfl, fun e => by cases e⟩
    rw [← hh.ready, h2]
  · rw [if_neg h2]
    obtain ⟨gs, h3, h4, h5⟩ := AprilGrid.C59_cameras b srt (put s.imgBuf cam sh) found
      (fun e he => hf e.1 e.2 ((hh.mem e).mp he))
    rw [h3, ok_bind]
    have hmem : ∀ c, c ∈ (put s.imgBuf cam sh).map Prod.fst ↔
        ∃ sh', lastOf ((h.map fun e => (e.1, e.2.1)) ++ [(cam, sh)]) c = some sh' := by
      intro c
      constructor
      · intro hm
        obtain ⟨e, he, rfl⟩ := List.mem_map.mp hm
        exact ⟨e.2, (hh.mem e).mp he⟩
      · rintro ⟨sh', hsh⟩
        exact List.mem_map.mpr ⟨(c, sh'), (hh.mem _).mpr hsh, rfl⟩
    refine ⟨_, _, rfl, ?_, fun e => (by cases e), fun _ => ?_⟩
    · rw [← hh.ready]
      simp only [true_iff]
      simpa using h2
    · cases imshow with
      | false =>
        refine ⟨h4, fun c => ?_⟩
        show SMap.find c gs = _
        rw [h5]
        cases hl : lastOf ((h.map fun e => (e.1, e.2.1)) ++ [(cam, sh)]) c with
        | none =>
          rw [if_neg]
          rintro ⟨hm, -⟩
          obtain ⟨sh', h6⟩ := (hmem c).mp hm
          rw [hl] at h6
          cases h6
        | some sh' =>
          have := (hmem c).mpr ⟨sh', hl⟩
          simp [this]
      | true =>
        obtain ⟨i1, i2⟩ := touch_spec (put s.imgBuf cam sh) gs h4
        refine ⟨i1, fun c => ?_⟩
        show SMap.find c (touch (put s.imgBuf cam sh) gs) = _
        rw [i2, h5]
        cases hl : lastOf ((h.map fun e => (e.1, e.2.1)) ++ [(cam, sh)]) c with
        | none =>
          have hm : c ∉ (put s.imgBuf cam sh).map Prod.fst := by
            intro hm
            obtain ⟨sh', h6⟩ := (hmem c).mp hm
            rw [hl] at h6
            cases h6
          simp [hm]
        | some sh' =>
          have hm := (hmem c).mpr ⟨sh', hl⟩
          by_cases hd : (found c).detected = true
          · simp [hm, hd]
          · simp [hm, hd]

/-! ### Concrete histories -/

namespace Ex

open AprilGrid (square byId)

def seen (ts : Int) : Shot := ⟨ts, ⟨1, 200, 200⟩, [square 0 10 10, square 1 30 10, square 2 50 10, square 3 70 10], Tag.p⟩
def blank (ts : Int) : Shot := ⟨ts, ⟨1, 200, 200⟩, [], Tag.p⟩
/-- Halving the image halves every pixel. -/
def half (k : ℚ) (sh : Shot) : Shot :=
  { sh with tags := sh.tags.map fun t => { t with p := fun i => (k * (t.p i).1, k * (t.p i).2) } }
def cfg (k : ℚ) : Cfg := ⟨⟨2, 2, 1, 1⟩, k, byId, half⟩
def env : VEnv ℚ Unit := ⟨fun _ => true, fun _ _ => .ok []⟩
def s0 : VSt Unit := ⟨{ VI.St.new false 2 false false with cams := [(0, ⟨false, false⟩), (1, ⟨false, false⟩)] }, []⟩

/-- One sample, then the first frame of two cameras. -/
def h : List (Call Unit) := [.image 0 (seen 1), .imu 2 () (), .image 0 (seen 5), .image 1 (seen 5)]

def vals (x : Except Fault (VSt Unit)) : VSt Unit := match x with | .ok s => s | .error _ => s0
theorem vals_eq {x : Except Fault (VSt Unit)} (h : VI.Witness.good x = true) : x = .ok (vals x) := by
  cases x with
  | ok a => rfl
  | error e => simp [VI.Witness.good] at h

def answer (x : Except Fault (VSt Unit × Bool)) : Bool := AprilGrid.check x fun r => r.2

/-- C119 witness: the image before the first sample does not count; the second frame is complete with the image of
camera 0, whichever comes last; pixels found in an image of half the size are doubled. -/
example : Fresh s0 ∧ run env (cfg (1 / 2)) s0 h = .ok (vals (run env (cfg (1 / 2)) s0 h)) ∧ started h = true ∧
    (taken h).map (fun e => (e.1, e.2.ts)) = [(0, 5), (1, 5)] ∧
    answer (addImage (cfg (1 / 2)) (vals (run env (cfg (1 / 2)) s0 h)) 1 (seen 9)) = false ∧
    answer (addImage (cfg (1 / 2)) (vals (run env (cfg (1 / 2)) s0 (h ++ [.image 1 (seen 9)]))) 0 (seen 9)) = true ∧
    AprilGrid.check (run env (cfg (1 / 2)) s0 (h ++ [.image 1 (seen 9), .image 0 (seen 9)])) (fun t =>
      decide (t.base.gridBuf.map (fun e => (e.1, e.2.timestamp)) = [(0, 9), (1, 9)]) &&
      t.base.gridBuf.all (fun e => decide (AprilGrid.keypoint e.2 1 2 = .ok (40, 20)))) = true := by
  refine ⟨⟨rfl, rfl⟩, vals_eq (by decide +kernel), by decide +kernel, by decide +kernel, by decide +kernel,
    by decide +kernel, by decide +kernel⟩

/-- C119 witness: the hypotheses of `C119_image` and `C119_partial_frame`: camera 1 sees nothing. -/
example : ∃ found : Int → Grid ℚ,
    (∀ cam' sh', lastOf (taken (h ++ [.image 1 (blank 9)]) ++ [(0, seen 9)]) cam' = some sh' →
      Finds (cfg 1) (given (cfg 1) sh') (found cam')) ∧
    (found 1).detected = false ∧ (found 0).detected = true := by
  obtain ⟨g0, h1, h2⟩ := AprilGrid.of_check (x := detectThread ⟨2, 2, 1, 1⟩ byId Tag.p 9 ⟨1, 200, 200⟩ (seen 9).tags)
    (p := fun g => decide (g.detected = true)) (by decide +kernel)
  obtain ⟨g1, h3, h4⟩ := AprilGrid.of_check (x := detectThread ⟨2, 2, 1, 1⟩ byId Tag.p 9 ⟨1, 200, 200⟩ [])
    (p := fun g => decide (g.detected = false)) (by decide +kernel)
  refine ⟨fun c => if c = 0 then g0 else g1, ?_, of_decide_eq_true h4, of_decide_eq_true h2⟩
  have hg : ∀ sh, given (cfg 1) sh = sh := by intro sh; unfold given; simp [cfg]
  have ht : taken (h ++ [Call.image 1 (blank 9)]) = [(0, seen 5), (1, seen 5), (1, blank 9)] := rfl
  intro cam' sh' hl
  rw [hg]
  rw [ht] at hl
  have hl2 : (if cam' = 0 then some (seen 9) else if cam' = 1 then some (blank 9) else none) = some sh' := by
    have e := lastOf_concat [(0, seen 5), (1, seen 5), (1, blank 9)] 0 cam' (seen 9)
    have e2 := lastOf_concat [(0, seen 5), (1, seen 5)] 1 cam' (blank 9)
    have e3 := lastOf_concat [(0, seen 5)] 1 cam' (seen 5)
    have e4 := lastOf_concat [] 0 cam' (seen 5)
    simp only [List.cons_append, List.nil_append] at hl e e2 e3 e4
    rw [e, e2, e3, e4] at hl
    split_ifs at hl ⊢
    · exact hl
    · exact hl
    · cases hl
  by_cases hc : cam' = 0
  · rw [if_pos hc] at hl2
    injection hl2 with hl2
    subst hl2
    subst hc
    exact h1
  · rw [if_neg hc] at hl2
    split_ifs at hl2 with hc1
    injection hl2 with hl2
    subst hl2
    unfold Finds
    rw [show (fun c : Int => if c = 0 then g0 else g1) cam' = g1 from if_neg hc]
    exact h3

/-- C119 witness: the hypotheses of `C119_reset_refuted`: a restart at 3, camera 1 still holding its image of 5. -/
example : run env (cfg 1) s0 (h ++ [.reset, .imu 2 () ()]) = .ok (vals (run env (cfg 1) s0 (h ++ [.reset, .imu 2 () ()]))) ∧
    (lastOf (taken h) 1).map Shot.ts = some 5 ∧ (∀ e ∈ taken h, (seen 3).ts < e.2.ts) ∧
    AprilGrid.check (addImage (cfg 1) (vals (run env (cfg 1) s0 (h ++ [.reset, .imu 2 () ()]))) 0 (seen 3)) (fun t =>
      t.2 && decide (t.1.base.gridBuf.map (fun e => (e.1, e.2.timestamp)) = [(0, 3), (1, 5)])) = true := by
  refine ⟨vals_eq (by decide +kernel), by decide +kernel, ?_, by decide +kernel⟩
  have ht : taken h = [(0, seen 5), (1, seen 5)] := rfl
  rw [ht]
  decide

/-- C119 witness: two cameras of `calib_camera_t`; one sees nothing and gets an empty grid when shown. -/
example : AprilGrid.check (runCam ⟨2, 2, 1, 1⟩ byId ⟨[], []⟩ [(0, seen 5, false), (1, seen 5, false), (1, blank 9, false), (0, seen 9, true)])
    (fun t => decide (t.gridBuf.map (fun e => (e.1, e.2.timestamp, e.2.detected)) = [(0, 9, true), (1, 0, false)])) = true := by
  decide +kernel

end Ex

end Yac.Image
