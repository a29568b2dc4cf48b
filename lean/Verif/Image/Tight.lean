import Verif.Image.CamProps

namespace Yac.Image
open Yac.VI

variable {D : Type}

/-- **C119.** With a scale that is not positive the image that completes a frame throws. -/
theorem C119_scale_refuted (c : Cfg) (hk : c.scale ≤ 0) (s : VSt D) (hs : s.base.imuStarted = true) (cam : Int) (sh : AprilGrid.Shot)
    (hr : ready sh.ts (put s.imgBuf cam sh) = true) : addImage c s cam sh = .error .exn := by
  have h0 : Num.fltcmp c.scale 1 ≠ 0 := by
    unfold Num.fltcmp
    rw [if_neg]
    · split_ifs <;> decide
    · rw [abs_sub_comm, abs_of_nonneg (by linarith)]
      intro h
      norm_num at h
      linarith
  unfold addImage
  rw [if_neg (by simp [hs]), if_neg (by simp [hr])]
  unfold detectBuf
  rw [if_pos h0, if_pos hk]
  rfl

open Ex in
example : addImage (cfg 0) { s0 with base := { s0.base with imuStarted := true }, imgBuf := [(1, seen 5)] } 0 (seen 5) = .error .exn :=
  C119_scale_refuted (cfg 0) (by decide) _ rfl 0 (seen 5) (by decide +kernel)

end Yac.Image
