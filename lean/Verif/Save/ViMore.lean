import Verif.Save.ViProps
import Verif.VI.LoadProps

/-! # C127: what is kept exactly, what is lost, and when saving fails -/

namespace Yac.Save
open Yac.Config Yac.Text Yac.Fmt Yac.Ctor

/-! ### Relative poses -/

/-- A matrix of doubles. -/
def toReal (M : M4) : Matrix (Fin 4) (Fin 4) ℝ := M.map (fun x : ℚ => (x : ℝ))

theorem toReal_mul (A B : M4) : toReal (A * B) = toReal A * toReal B := by
  ext i j
  simp [toReal, Matrix.mul_apply]

theorem pose_exact {M : M4} {rows : List (List ℝ)} {P : Matrix (Fin 4) (Fin 4) ℝ} (h : PoseNear M rows P) (hd : ∀ i j, Double (M i j)) :
    P = toReal M ∧ matOf rows = toReal M := by
  have hP : P = toReal M := by
    ext i j
    exact (h.2 i j).2 (hd i j)
  refine ⟨hP, ?_⟩
  rw [h.1, ← hP]
  exact matOf_rows P

/-- The pose of every camera with respect to the IMU survives exactly if the numbers that are printed are doubles. -/
theorem C127_relative (c : ViCalib) (T_WF : M4) (b : BuiltVi) (hb : Reloaded c T_WF b) (T_BC0 T_BCi : M4) (i : ℤ)
    (h0 : SMap.find 0 c.exts = some T_BC0) (hi : SMap.find i c.exts = some T_BCi) (d0 : T_BC0.det ≠ 0) (ds : c.T_BS.det ≠ 0)
    (hd : ∀ a k, Double ((c.T_BS⁻¹ * T_BC0) a k)) (hd' : ∀ a k, Double ((T_BC0⁻¹ * T_BCi) a k)) :
    ∃ cam', SMap.find i b.cams = some cam' ∧ b.T_BS⁻¹ * matOf cam'.ext = toReal (c.T_BS⁻¹ * T_BCi) := by
  obtain ⟨T, hT, ⟨rows, P, hP, hS⟩, hcams⟩ := hb.extrinsics
  rw [h0] at hT
  cases hT
  obtain ⟨cam', hf, e0, e1⟩ := hcams i _ hi
  refine ⟨cam', hf, ?_⟩
  have u0 : IsUnit T_BC0.det := isUnit_iff_ne_zero.mpr d0
  have hPe := (pose_exact hP hd).1
  have hdet : IsUnit P.det := by
    rw [isUnit_iff_ne_zero, hPe]
    have e : (toReal (c.T_BS⁻¹ * T_BC0)).det = (((c.T_BS⁻¹ * T_BC0).det : ℚ) : ℝ) := ((algebraMap ℚ ℝ).map_det (c.T_BS⁻¹ * T_BC0)).symm
    rw [e, Matrix.det_mul, Matrix.det_nonsing_inv]
    have : (Ring.inverse c.T_BS.det * T_BC0.det : ℚ) ≠ 0 := by
      rw [Ring.inverse_eq_inv']
      exact mul_ne_zero (inv_ne_zero ds) d0
    exact_mod_cast this
  rw [hS, Matrix.nonsing_inv_nonsing_inv _ hdet, hPe]
  by_cases h : i = 0
  · subst h
    rw [h0] at hi
    cases hi
    rw [e0 rfl]
    have : matOf identity4 = 1 := by
      ext a k
      fin_cases a <;> fin_cases k <;> simp [matOf, identity4]
    rw [this, mul_one]
  · obtain ⟨Q, hQ⟩ := e1 h
    rw [(pose_exact hQ hd').2, ← toReal_mul, Matrix.mul_assoc, ← Matrix.mul_assoc T_BC0, Matrix.mul_nonsing_inv _ u0, Matrix.one_mul]

/-! ### When saving succeeds -/

theorem range_of_sub {l : List ℤ} (hs : l.Pairwise (· < ·)) (h : ∀ i : ℕ, i < l.length → (i : ℤ) ∈ l) :
    l = (List.range l.length).map (fun i : ℕ => (i : ℤ)) := by
  have hr : ((List.range l.length).map (fun i : ℕ => (i : ℤ))).Pairwise (· < ·) := by
    rw [List.pairwise_map]
    exact List.pairwise_lt_range.imp (fun h => by exact_mod_cast h)
  have hsub : ((List.range l.length).map (fun i : ℕ => (i : ℤ))) ⊆ l := by
    intro x hx
    obtain ⟨i, hi, rfl⟩ := List.mem_map.mp hx
    exact h i (List.mem_range.mp hi)
  have hn : ((List.range l.length).map (fun i : ℕ => (i : ℤ))).Nodup := hr.imp (fun h => ne_of_lt h)
  have hp := (List.subperm_of_subset hn hsub).perm_of_length_le (by simp)
  exact (hp.eq_of_pairwise (fun a b _ _ h1 h2 => absurd (lt_trans h1 h2) (lt_irrefl a)) hr hs).symm

theorem forall2_left {α β : Type} {R : α → β → Prop} {l : List α} {m : List β} (h : List.Forall₂ R l m) {a : α} (ha : a ∈ l) : ∃ b, b ∈ m ∧ R a b := by
  induction h with
  | nil => cases ha
  | cons hd _ ih =>
    rcases List.mem_cons.mp ha with rfl | ha
    · exact ⟨_, List.mem_cons_self, hd⟩
    · obtain ⟨b, hb, hr⟩ := ih ha
      exact ⟨b, List.mem_cons_of_mem _ hb, hr⟩

/-- Saving succeeds just if the cameras are numbered 0, 1, ..., without gaps, there is one, and the target has a pose; otherwise
the file is left unfinished. -/
theorem C127_saves (c : ViCalib) (x : Extra) (hs : SMap.Sorted c.cams) (hk : c.exts.map Prod.fst = c.cams.map Prod.fst) :
    (∃ doc, saveVi c x = .ok doc) ↔
      (∃ N : ℕ, 1 ≤ N ∧ c.cams.map Prod.fst = (List.range N).map (fun i : ℕ => (i : ℤ))) ∧ c.fiducial.isSome = true := by
  have hs' : (c.cams.map Prod.fst).Pairwise (· < ·) := by rw [List.pairwise_map]; exact hs
  constructor
  · rintro ⟨doc, h⟩
    unfold saveVi at h
    obtain ⟨T0, h1, h2⟩ := Calib.bind_ok h
    obtain ⟨es, h3, h4⟩ := Calib.bind_ok h2
    have hf : c.fiducial.isSome = true := by
      cases hc : c.fiducial with
      | none => rw [hc] at h4; cases h4
      | some T => rfl
    refine ⟨⟨c.cams.length, ?_, ?_⟩, hf⟩
    · have : (SMap.find 0 c.exts).isSome = true := by
        unfold extOf at h1
        cases hc : SMap.find 0 c.exts with
        | none => rw [hc] at h1; cases h1
        | some T => rfl
      rw [SMap.find_isSome, hk] at this
      obtain ⟨a, ha, -⟩ := List.mem_map.mp this
      exact List.length_pos_of_mem ha
    · have := range_of_sub hs' (fun i hi => ?_)
      · simpa using this
      · rw [List.length_map] at hi
        rw [← hk, ← SMap.find_isSome]
        match i with
        | 0 =>
          unfold extOf at h1
          cases hc : SMap.find 0 c.exts with
          | none => rw [hc] at h1; cases h1
          | some T => simp
        | i + 1 =>
          rw [mapM_ok] at h3
          have hm : i ∈ List.range (c.cams.length - 1) := List.mem_range.mpr (by omega)
          obtain ⟨e, he, heq⟩ := forall2_left h3 hm
          unfold extNode at heq
          obtain ⟨T, hT, -⟩ := Calib.bind_ok heq
          unfold extOf at hT
          cases hc : SMap.find ((i + 1 : ℕ) : ℤ) c.exts with
          | none => rw [hc] at hT; cases hT
          | some T => rfl
  · rintro ⟨⟨N, hN, hc⟩, hf⟩
    obtain ⟨T_WF, hw⟩ := Option.isSome_iff_exists.mp hf
    have he : c.exts.map Prod.fst = (List.range N).map (fun i : ℕ => (i : ℤ)) := hk.trans hc
    obtain ⟨T0, h0⟩ := find_some he (i := 0) (by omega)
    have hl : c.cams.length = N := by
      have := congrArg List.length hc
      simpa using this
    have e0 : extOf c 0 = .ok T0 := by
      unfold extOf
      have h0 : SMap.find 0 c.exts = some T0 := h0
      rw [h0]
    have em : (List.range (N - 1)).mapM (fun i => extNode c T0 (i + 1)) = .ok (extPart c T0 N) := by
      refine mapM_all _ _ _ (fun i hi => ?_)
      have hi' : i + 1 < N := by have := List.mem_range.mp hi; omega
      obtain ⟨v, hv⟩ := find_some he hi'
      unfold extNode extOf
      rw [hv]
      show Except.ok _ = _
      rw [extKey_nat]
      rfl
    unfold saveVi
    rw [e0, hl]
    refine ⟨.map (docOf c x T0 T_WF N), ?_⟩
    show ((List.range (N - 1)).mapM (fun i => extNode c T0 (i + 1)) >>= _) = _
    rw [em, hw]
    rfl

/-! ### What is lost -/

/-- `verbose`, `estimate_time_delay`, `img_scale` and the estimated time delay are not in the calibrator that is made: any two
calibrators that differ only there give the same one. -/
theorem C127_lost_refuted (D : Dec) (hD : Reads D) (c : ViCalib) (x : Extra) (N : ℕ) (T_WF : M4) (h : Complete c N T_WF)
    (v e : Bool) (s t : ℚ) : ∃ doc doc' b, saveVi c x = .ok doc ∧
      saveVi { c with verbose := v, estimateTimeDelay := e, imgScale := s, timeDelay := t } x = .ok doc' ∧
      viCtor D doc = .ok b ∧ viCtor D doc' = .ok b := by
  obtain ⟨T0, h0⟩ := find_some h.exts (i := 0) (by have := h.some_camera; omega)
  have h0 : SMap.find 0 c.exts = some T0 := h0
  have h' : Complete { c with verbose := v, estimateTimeDelay := e, imgScale := s, timeDelay := t } N T_WF :=
    ⟨h.some_camera, h.few, h.cams, h.exts, h.models, h.fiducial, h.ints, h.vision, h.imu⟩
  exact ⟨_, _, newVi c T0 T_WF, save_eq c x h h0, save_eq _ x h' h0,
    (C121_vi D _ (doc_sections c x T0 T_WF N) _).mpr (new_file hD c x h h0),
    (C121_vi D _ (doc_sections _ x T0 T_WF N) _).mpr (new_file hD _ x h' h0)⟩

end Yac.Save
