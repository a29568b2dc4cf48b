import Verif.Csv.SimProps

/-! C130: what happens when the series of a simulated data set do not have the same length. -/

namespace Yac.Csv
open Yac.Text Yac.Geom

/-- The series that are written beside each other are long enough. -/
def Enough (d : SimData) : Prop :=
  d.camTs.length ≤ d.observations.length ∧ d.camTs.length ≤ d.keypoints.length ∧
  d.camTs.length ≤ d.camRot.length ∧ d.camTs.length ≤ d.camPos.length ∧
  d.imuTs.length ≤ d.imuAcc.length ∧ d.imuTs.length ≤ d.imuGyr.length ∧
  d.imuTs.length ≤ d.imuRot.length ∧ d.imuTs.length ≤ d.imuPos.length ∧ d.imuTs.length ≤ d.imuVel.length

instance (d : SimData) : Decidable (Enough d) := by unfold Enough; infer_instance

theorem zipRows_or {α : Type} (row : ℤ → α → List Char) : ∀ (ts : List ℤ) (as : List α),
    (ts.length ≤ as.length → ∃ r, zipRows row ts as = .ok r) ∧ (¬ ts.length ≤ as.length → zipRows row ts as = .error .oob)
  | [], as => ⟨fun _ => ⟨_, rfl⟩, fun h => absurd (Nat.zero_le _) h⟩
  | t :: ts, [] => ⟨fun h => by simp at h, fun _ => rfl⟩
  | t :: ts, a :: as => by
    obtain ⟨h1, h2⟩ := zipRows_or row ts as
    constructor
    · intro h
      obtain ⟨r, hr⟩ := h1 (by simpa using h)
      exact ⟨row t a ++ r, by show (zipRows row ts as >>= _) = _; rw [hr]; rfl⟩
    · intro h
      show (zipRows row ts as >>= _) = _
      rw [h2 (by simpa using h)]; rfl

theorem zipRows2_or {α β : Type} (row : ℤ → α → β → List Char) : ∀ (ts : List ℤ) (as : List α) (bs : List β),
    (ts.length ≤ as.length ∧ ts.length ≤ bs.length → ∃ r, zipRows2 row ts as bs = .ok r) ∧
    (¬ (ts.length ≤ as.length ∧ ts.length ≤ bs.length) → zipRows2 row ts as bs = .error .oob)
  | [], as, bs => ⟨fun _ => ⟨_, rfl⟩, fun h => absurd ⟨Nat.zero_le _, Nat.zero_le _⟩ h⟩
  | t :: ts, [], bs => ⟨fun h => by simp at h, fun _ => rfl⟩
  | t :: ts, a :: as, [] => ⟨fun h => by simp at h, fun _ => rfl⟩
  | t :: ts, a :: as, b :: bs => by
    obtain ⟨h1, h2⟩ := zipRows2_or row ts as bs
    constructor
    · intro h
      obtain ⟨r, hr⟩ := h1 (by simpa using h)
      exact ⟨row t a b ++ r, by show (zipRows2 row ts as bs >>= _) = _; rw [hr]; rfl⟩
    · intro h
      show (zipRows2 row ts as bs >>= _) = _
      rw [h2 (by simpa using h)]; rfl

theorem camPoses_or : ∀ (ts : List ℤ) (qs : List (Quat ℚ)) (rs : List (Vec3 ℚ)),
    (ts.length ≤ qs.length ∧ ts.length ≤ rs.length → ∃ ps, camPoses ts qs rs = .ok ps ∧ ps.length = ts.length) ∧
    (¬ (ts.length ≤ qs.length ∧ ts.length ≤ rs.length) → camPoses ts qs rs = .error .oob)
  | [], qs, rs => ⟨fun _ => ⟨_, rfl, rfl⟩, fun h => absurd ⟨Nat.zero_le _, Nat.zero_le _⟩ h⟩
  | t :: ts, [], rs => ⟨fun h => by simp at h, fun _ => rfl⟩
  | t :: ts, q :: qs, [] => ⟨fun h => by simp at h, fun _ => rfl⟩
  | t :: ts, q :: qs, r :: rs => by
    obtain ⟨h1, h2⟩ := camPoses_or ts qs rs
    constructor
    · intro h
      obtain ⟨ps, hr, hl⟩ := h1 (by simpa using h)
      exact ⟨tfQuat q r :: ps, by show (camPoses ts qs rs >>= _) = _; rw [hr]; rfl, by simp [hl]⟩
    · intro h
      show (camPoses ts qs rs >>= _) = _
      rw [h2 (by simpa using h)]; rfl

/-- C130: a data set is saved exactly when the directory could be made and every series has an entry for every timestamp;
otherwise the program reads outside a vector (or writes to a file that is not open). -/
theorem C130_sim_saved (quatOf : Mat4 ℚ → Quat ℚ) (opened : Bool) (d : SimData) :
    (opened = true ∧ Enough d → ∃ f, simSave quatOf opened d = .ok f) ∧
    (¬ (opened = true ∧ Enough d) → simSave quatOf opened d = .error .oob) := by
  unfold simSave
  cases opened with
  | false => exact ⟨fun h => absurd h.1 (by decide), fun _ => rfl⟩
  | true =>
    rw [if_pos rfl]
    simp only [true_and, Enough]
    obtain ⟨a1, a2⟩ := zipRows_or obsRow d.camTs d.observations
    obtain ⟨b1, b2⟩ := zipRows_or kpRow d.camTs d.keypoints
    obtain ⟨c1, c2⟩ := camPoses_or d.camTs d.camRot d.camPos
    obtain ⟨e1, e2⟩ := zipRows2_or imuRow d.imuTs d.imuAcc d.imuGyr
    obtain ⟨f1, f2⟩ := zipRows2_or imuPoseRow d.imuTs d.imuRot d.imuPos
    obtain ⟨g1, g2⟩ := zipRows_or imuVelRow d.imuTs d.imuVel
    have ok : ∀ {α β : Type} (a : α) (f : α → Except Fault β), ((Except.ok a : Except Fault α) >>= f) = f a := fun _ _ => rfl
    have er : ∀ {α β : Type} (f : α → Except Fault β), ((Except.error .oob : Except Fault α) >>= f) = .error .oob := fun _ => rfl
    by_cases ha : d.camTs.length ≤ d.observations.length
    swap
    · rw [a2 ha, er]; exact ⟨fun h => absurd h.1 ha, fun _ => rfl⟩
    obtain ⟨ra, hra⟩ := a1 ha
    rw [hra, ok]
    by_cases hb : d.camTs.length ≤ d.keypoints.length
    swap
    · rw [b2 hb, er]; exact ⟨fun h => absurd h.2.1 hb, fun _ => rfl⟩
    obtain ⟨rb, hrb⟩ := b1 hb
    rw [hrb, ok]
    by_cases hc : d.camTs.length ≤ d.camRot.length ∧ d.camTs.length ≤ d.camPos.length
    swap
    · rw [c2 hc, er]; exact ⟨fun h => absurd ⟨h.2.2.1, h.2.2.2.1⟩ hc, fun _ => rfl⟩
    obtain ⟨rc, hrc, hl⟩ := c1 hc
    rw [hrc, ok]
    unfold savePoses
    rw [if_pos hl.ge, ok]
    by_cases he : d.imuTs.length ≤ d.imuAcc.length ∧ d.imuTs.length ≤ d.imuGyr.length
    swap
    · rw [e2 he, er]; exact ⟨fun h => absurd ⟨h.2.2.2.2.1, h.2.2.2.2.2.1⟩ he, fun _ => rfl⟩
    obtain ⟨re, hre⟩ := e1 he
    rw [hre, ok]
    by_cases hf : d.imuTs.length ≤ d.imuRot.length ∧ d.imuTs.length ≤ d.imuPos.length
    swap
    · rw [f2 hf, er]; exact ⟨fun h => absurd ⟨h.2.2.2.2.2.2.1, h.2.2.2.2.2.2.2.1⟩ hf, fun _ => rfl⟩
    obtain ⟨rf, hrf⟩ := f1 hf
    rw [hrf, ok]
    by_cases hg : d.imuTs.length ≤ d.imuVel.length
    swap
    · rw [g2 hg, er]; exact ⟨fun h => absurd h.2.2.2.2.2.2.2.2 hg, fun _ => rfl⟩
    obtain ⟨rg, hrg⟩ := g1 hg
    rw [hrg, ok]
    exact ⟨fun _ => ⟨_, rfl⟩, fun h => absurd ⟨ha, hb, hc.1, hc.2, he.1, he.2, hf.1, hf.2, hg⟩ h⟩

/-- C130 witness: a set with one frame and one sample; without the rotation of the camera it is not saved. -/
example : Enough (dataOf [] [⟨5, [], [], ⟨1, 0, 0, 0⟩, 0⟩] []) ∧
    ¬ Enough { dataOf [] [⟨5, [], [], ⟨1, 0, 0, 0⟩, 0⟩] [] with camRot := [] } := by decide

end Yac.Csv
