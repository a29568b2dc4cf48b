import Verif.Gimbal.FileLemmas

namespace Yac.Gimbal
open Yac.Text Yac.Num

/-! ### C124 -/

theorem map_ok_two {cs : List Str} {w h : ℤ} (hs : cs.map (fun x => toInt32 (number x)) = [.ok w, .ok h]) :
    cs.map (fun c => toInt32 (number c)) = [w, h].map .ok := hs

/-- One camera section: everything as written, except that the models are always `pinhole` and `radtan4`. -/
theorem loadCamera_text (c : CamText) (w h : ℤ) (ok : c.Ok w h) (rest : Str) :
    loadCamera (c.text ++ rest) =
      .ok ({ c.camera (w, h) with projModel := "pinhole".toList, distModel := "radtan4".toList }, rest) := by
  have e : c.text ++ rest = c.head ++ '\n' :: (kv c.indent "resolution".toList (vec c.res) ++
      (kv c.indent "proj_model".toList (quoted c.projModel) ++ (kv c.indent "dist_model".toList (quoted c.distModel) ++
      (kv c.indent "proj_params".toList (vec c.proj) ++ (kv c.indent "dist_params".toList (vec c.dist) ++ '\n' :: rest))))) := by
    simp [CamText.text]
  have hi := ok.indent
  unfold loadCamera
  rw [e, skip_line _ _ ok.head.1 ok.head.2, keyInts_kv 2 c.indent (by norm_num) _ _ _ (by decide) ok.res [w, h] (map_ok_two ok.size),
    okb']
  simp only
  rw [keyString_kv c.indent _ _ _ (by decide) (by simp; omega) ok.projModel, okb']
  simp only
  rw [keyString_kv c.indent _ _ _ (by decide) (by simp; omega) ok.distModel, okb']
  simp only
  rw [keyReals_kv 4 c.indent (by norm_num) _ _ _ (by decide) ok.proj, okb']
  simp only
  rw [keyReals_kv 4 c.indent (by norm_num) _ _ _ (by decide) ok.dist, okb']
  simp only
  have hs := skip_line [] rest (by simp) (by norm_num)
  rw [List.nil_append] at hs
  rw [hs]
  rfl

theorem loadCameras_text (cs : List CamText) (sizes : List (ℤ × ℤ))
    (h : List.Forall₂ (fun (t : CamText) (s : ℤ × ℤ) => t.Ok s.1 s.2) cs sizes) (rest : Str) :
    loadCameras cs.length (cs.flatMap CamText.text ++ rest) =
      .ok (List.zipWith (fun (c : CamText) (s : ℤ × ℤ) =>
        { c.camera s with projModel := "pinhole".toList, distModel := "radtan4".toList }) cs sizes, rest) := by
  induction h with
  | nil => rfl
  | cons ht _ ih =>
    rw [List.flatMap_cons, List.append_assoc, List.length_cons, loadCameras, loadCamera_text _ _ _ ht, okb']
    simp only
    rw [ih]; rfl

/-- A well-formed configuration file: all values as written, but every camera gets the models `pinhole` and
`radtan4`. -/
theorem C124_config_partial (c : ConfText) (sizes : List (ℤ × ℤ)) (ok : c.Ok sizes) (rest : Str) :
    loadConfig (some (c.text ++ rest)) = .ok { c.config sizes with
      cams := (c.config sizes).cams.map fun k => { k with projModel := "pinhole".toList, distModel := "radtan4".toList } } := by
  have e : c.text ++ rest = kv 0 "num_cams".toList (natText c.cams.length) ++ (kv 0 "num_links".toList (natText c.links) ++
      '\n' :: (c.cams.flatMap CamText.text ++ (kv 0 "cam0_ext".toList (vec c.cam0) ++ (kv 0 "cam1_ext".toList (vec c.cam1) ++
      (kv 0 "end_ext".toList (vec c.effector) ++ (kv 0 "link0_ext".toList (vec c.link0) ++
      (kv 0 "link1_ext".toList (vec c.link1) ++ (kv 0 "gimbal_ext".toList (vec c.gimbal) ++ rest)))))))) := by
    simp only [ConfText.text, List.append_assoc, List.cons_append, List.nil_append]
  unfold loadConfig
  simp only
  rw [e, keyInt_kv 0 _ _ _ (by decide) (by decide) ok.few, okb']
  simp only
  rw [keyInt_kv 0 _ _ _ (by decide) (by decide) ok.links, okb']
  simp only
  have hs := fun r => skip_line [] r (by simp) (by norm_num)
  simp only [List.nil_append] at hs
  rw [hs, Int.toNat_natCast, loadCameras_text _ _ ok.cams, okb']
  simp only
  rw [keyReals_kv 7 0 (by norm_num) _ _ _ (by decide) ok.cam0, okb']
  simp only
  rw [keyReals_kv 7 0 (by norm_num) _ _ _ (by decide) ok.cam1, okb']
  simp only
  rw [keyReals_kv 7 0 (by norm_num) _ _ _ (by decide) ok.effector, okb']
  simp only
  rw [keyReals_kv 7 0 (by norm_num) _ _ _ (by decide) ok.link0, okb']
  simp only
  rw [keyReals_kv 7 0 (by norm_num) _ _ _ (by decide) ok.link1, okb']
  simp only
  rw [keyReals_kv 7 0 (by norm_num) _ _ _ (by decide) ok.gimbal, okb']
  unfold ConfText.config
  simp only [List.map_zipWith]

/-- With the models `pinhole` and `radtan4` in every section the configuration is the one the file describes. -/
theorem C124_config (c : ConfText) (sizes : List (ℤ × ℤ)) (ok : c.Ok sizes) (rest : Str)
    (hm : ∀ k ∈ c.cams, k.projModel = "pinhole".toList ∧ k.distModel = "radtan4".toList) :
    loadConfig (some (c.text ++ rest)) = .ok (c.config sizes) := by
  rw [C124_config_partial c sizes ok rest]
  have : (c.config sizes).cams.map (fun k => { k with projModel := "pinhole".toList, distModel := "radtan4".toList }) =
      (c.config sizes).cams := by
    conv_rhs => rw [← List.map_id (c.config sizes).cams]
    apply List.map_congr_left
    intro k hk
    unfold ConfText.config at hk
    simp only at hk
    obtain ⟨i, hi, rfl⟩ := List.mem_iff_getElem.mp hk
    rw [List.getElem_zipWith]
    have hi' : i < c.cams.length := by rw [List.length_zipWith] at hi; omega
    obtain ⟨h1, h2⟩ := hm _ (List.getElem_mem hi')
    simp only [CamText.camera, id_eq]
    rw [h1, h2]
  rw [this]

/-- A file that cannot be opened stops the program. -/
theorem C124_missing (chk : Bool) : loadConfig none = .error .fatal ∧ loadJoints chk none = .error .fatal :=
  ⟨rfl, rfl⟩

/-- A line with another key than the expected one, or the end of the file, stops the program. -/
theorem C124_key (key : Str) (i : Nat) (k v rest : Str) (hk : KeyOk k) (hv : ValOk v) (hf : Fits i k v) (hne : k ≠ key) (n : Nat) :
    (keyInt key (kv i k v ++ rest) = .error .fatal ∧ keyString key (kv i k v ++ rest) = .error .fatal ∧
      keyInts n key (kv i k v ++ rest) = .error .fatal ∧ keyReals n key (kv i k v ++ rest) = .error .fatal) ∧
    (keyInt key [] = .error .fatal ∧ keyString key [] = .error .fatal ∧ keyInts n key [] = .error .fatal ∧
      keyReals n key [] = .error .fatal) := by
  have h : keyValue key (kv i k v ++ rest) = .error .fatal := by rw [keyValue_line i k key v rest hk hv hf, if_neg hne]
  refine ⟨⟨?_, ?_, ?_, ?_⟩, rfl, rfl, rfl, rfl⟩
  · unfold keyInt; rw [h]; rfl
  · unfold keyString; rw [h]; rfl
  · unfold keyInts; rw [h]; rfl
  · unfold keyReals; rw [h]; rfl

/-- The file the program writes at the end is not a configuration it can read: the transforms come in another
order. -/
theorem C124_results_refuted (cam0 cam1 : CamText) (w0 h0 w1 h1 : ℤ)
    (ok0 : ({ cam0 with head := "cam0:".toList, indent := 2 } : CamText).Ok w0 h0)
    (ok1 : ({ cam1 with head := "cam1:".toList, indent := 2 } : CamText).Ok w1 h1)
    (gimbal link0 link1 effector ext0 ext1 fiducial : List Str) (hg : VecOk 7 0 "gimbal_ext".toList gimbal) :
    loadConfig (some (resultsText cam0 cam1 gimbal link0 link1 effector ext0 ext1 fiducial)) = .error .fatal := by
  generalize hc0 : ({ cam0 with head := "cam0:".toList, indent := 2 } : CamText) = c0 at ok0
  generalize hc1 : ({ cam1 with head := "cam1:".toList, indent := 2 } : CamText) = c1 at ok1
  obtain ⟨tail, e⟩ : ∃ tail, resultsText cam0 cam1 gimbal link0 link1 effector ext0 ext1 fiducial =
      kv 0 "num_cams".toList (natText 2) ++ (kv 0 "num_links".toList (natText 2) ++
      '\n' :: ([c0, c1].flatMap CamText.text ++ (kv 0 "gimbal_ext".toList (vec gimbal) ++ tail))) := by
    refine ⟨kv 0 "link0_ext".toList (vec link0) ++ kv 0 "link1_ext".toList (vec link1) ++
      kv 0 "end_ext".toList (vec effector) ++ kv 0 "cam0_ext".toList (vec ext0) ++ kv 0 "cam1_ext".toList (vec ext1) ++
      kv 0 "fiducial_pose".toList (vec fiducial), ?_⟩
    unfold resultsText
    rw [hc0, hc1]
    simp only [List.append_assoc, List.cons_append, List.nil_append, List.flatMap_cons, List.flatMap_nil, List.append_nil]
  unfold loadConfig
  simp only
  rw [e, keyInt_kv 0 _ 2 _ (by decide) (by decide) (by norm_num), okb']
  simp only
  rw [keyInt_kv 0 _ 2 _ (by decide) (by decide) (by norm_num), okb']
  simp only
  have hs := fun r => skip_line [] r (by simp) (by norm_num)
  simp only [List.nil_append] at hs
  have hcam := loadCameras_text [c0, c1] [(w0, h0), (w1, h1)] (.cons ok0 (.cons ok1 .nil))
    (kv 0 "gimbal_ext".toList (vec gimbal) ++ tail)
  rw [hs, show ((2 : ℕ) : ℤ).toNat = [c0, c1].length from rfl, hcam, okb']
  simp only
  have hk := (C124_key "cam0_ext".toList 0 "gimbal_ext".toList (vec gimbal) tail (keyOk_spec (by decide)) (valOk_vec _ hg.2.1)
    hg.2.2 (by decide) 7).1.2.2.2
  rw [hk]; rfl

/-- Fewer numbers than expected are accepted, the rest is zero; more overrun the array. -/
theorem C124_count_refuted (n i : Nat) (k : Str) (cs : List Str) (rest : Str) (hk : keyOk k = true) (hne : cs ≠ [])
    (h : ∀ c ∈ cs, NumOk c) (hf : Fits i k (vec cs)) :
    (cs.length < n → keyReals n k (kv i k (vec cs) ++ rest) = .ok (cs.map number ++ List.replicate (n - cs.length) 0, rest)) ∧
    (n < cs.length → keyReals n k (kv i k (vec cs) ++ rest) = .error .oob) := by
  have hv := C124_vector_partial n (0 : ℚ) (fun x => .ok x) cs hne h (cs.map number) (by simp [List.map_map])
  refine ⟨fun hl => ?_, fun hl => ?_⟩
  · unfold keyReals
    rw [keyValue_kv i k _ rest (keyOk_spec hk) (valOk_vec cs h) hf, okb', hv.1 hl.le, okb']
    simp
  · unfold keyReals
    rw [keyValue_kv i k _ rest (keyOk_spec hk) (valOk_vec cs h) hf, okb', hv.2 hl]; rfl

/-- A model name of thirty characters or more overruns its buffer. -/
theorem C124_name_refuted (i : Nat) (k name rest : Str) (hk : keyOk k = true) (hf : Fits i k (quoted name))
    (hl : 30 ≤ name.length) (h2 : ∀ x ∈ name, x ≠ '"' ∧ x ≠ ':' ∧ x ≠ '\n' ∧ x ≠ nul) :
    keyString k (kv i k (quoted name) ++ rest) = .error .oob := keyString_long i k name rest hk hf hl h2

end Yac.Gimbal
