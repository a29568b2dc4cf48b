import Verif.Save.ViSpec

/-! # Reading the parts of a results file -/

namespace Yac.Save
open Yac.Config Yac.Text Yac.Fmt Yac.Ctor

theorem first_lookup {m : List (Str × Y)} {k : Str} {c : Y} : First m k c ↔ lookup m k = some c := by
  refine ⟨lookup_first, fun h => ?_⟩
  rcases first_or m k with ⟨d, hd⟩ | hn
  · rw [lookup_first hd] at h
    cases h
    exact hd
  · rw [lookup_missing hn] at h
    cases h

theorem lookup_append (a b : List (Str × Y)) (k : Str) : lookup (a ++ b) k = (lookup a k).or (lookup b k) := by
  unfold lookup
  rw [List.find?_append]
  cases a.find? (fun e => decide (e.1 = k)) <;> simp

theorem lookup_cons (e : Str × Y) (t : List (Str × Y)) (k : Str) : lookup (e :: t) k = if e.1 = k then some e.2 else lookup t k := by
  unfold lookup
  rw [List.find?_cons]
  by_cases h : e.1 = k
  · simp [h]
  · simp [h]

theorem absent_top {m : List (Str × Y)} {k : Str} {ks : List Str} (h : lookup m k = none) : Absent (.map m) (k :: ks) := by
  rintro ⟨n, hr⟩
  cases hr with
  | step hf _ =>
    rw [lookup_first hf] at h
    cases h

theorem reach_top {m : List (Str × Y)} {k : Str} {c : Y} (h : lookup m k = some c) : Reach (.map m) [k] c :=
  .step (first_lookup.mpr h) (.here _)

theorem reach_two {m l : List (Str × Y)} {s k : Str} {c : Y} (h : lookup m s = some (.map l)) (h' : lookup l k = some c) :
    Reach (.map m) [s, k] c := .step (first_lookup.mpr h) (.step (first_lookup.mpr h') (.here _))

theorem absent_two {m l : List (Str × Y)} {s k : Str} (h : lookup m s = some (.map l)) (h' : lookup l k = none) :
    Absent (.map m) [s, k] := by
  rintro ⟨n, hr⟩
  cases hr with
  | step hf hr =>
    rw [lookup_first hf] at h
    cases h
    cases hr with
    | step hg _ =>
      rw [lookup_first hg] at h'
      cases h'

/-! ### Values -/

/-- What is read of a text. -/
def val (l : List Char) : ℚ := (asDouble l).getD 0

theorem val_F (x : ℚ) : asDouble (fmtF x) = some (val (fmtF x)) ∧ NearF x (val (fmtF x)) := by
  obtain ⟨y, h1, h2⟩ := C126_f x
  unfold val NearF
  rw [h1]
  refine ⟨rfl, ?_⟩
  have h := (Rat.cast_le (K := ℝ)).mpr h2
  norm_num at h ⊢
  exact h

theorem val_E (x : ℚ) : asDouble (fmtE 6 x) = some (val (fmtE 6 x)) ∧ NearE x (val (fmtE 6 x)) := by
  obtain ⟨y, h1, h2⟩ := C126_e x
  unfold val NearE
  rw [h1]
  refine ⟨rfl, ?_⟩
  have h := (Rat.cast_le (K := ℝ)).mpr h2
  norm_num at h ⊢
  exact h

theorem val_G (x : ℚ) : asDouble (fmtG 17 x) = some (val (fmtG 17 x)) ∧ NearG x (val (fmtG 17 x)) := by
  have h1 := asDouble_of (strtod_fmtG 16 x)
  have h2 := (digits_err 16 x).trans (mul_le_mul_of_nonneg_right
    (by norm_num : (1 / 2 / 10 ^ 16 * (1 + 1 / 2 ^ 53) + 1 / 2 ^ 53 : ℚ) ≤ 1.7 / 10 ^ 16) (abs_nonneg x))
  unfold val NearG
  rw [h1]
  refine ⟨rfl, ?_, fun hd => ?_⟩
  · simp only [Option.getD_some]
    have h := (Rat.cast_le (K := ℝ)).mpr h2
    norm_num at h ⊢
    exact h
  · rw [C126_exact x hd] at h1
    injection h1 with h1
    simp only [Option.getD_some]
    exact_mod_cast h1.symm

theorem flag_text {D : Dec} (hD : Reads D) (b : Bool) : D.flag (boolText b) = some b := by
  cases b
  · exact hD.flag_false
  · exact hD.flag_true

theorem real_F {D : Dec} (hD : Reads D) (x : ℚ) : D.real (fmtF x) = some (val (fmtF x) : ℝ) := hD.real _ _ (val_F x).1
theorem real_E {D : Dec} (hD : Reads D) (x : ℚ) : D.real (fmtE 6 x) = some (val (fmtE 6 x) : ℝ) := hD.real _ _ (val_E x).1
theorem real_G {D : Dec} (hD : Reads D) (x : ℚ) : D.real (fmtG 17 x) = some (val (fmtG 17 x) : ℝ) := hD.real _ _ (val_G x).1

theorem vec_text (v : List ℚ) : items (vec2str v false true) = v.map (fmtG 17) := by
  have : vec2str v false true = commaJoin (v.map (fmtG 17)) := by
    show [] ++ commaJoin (v.map (fmtG 17)) ++ [] = _
    simp
  rw [this]
  exact items_join _ (fun t ht => by obtain ⟨x, _, rfl⟩ := List.mem_map.mp ht; exact token_fmtG 17 x)

/-- Reading a vector. -/
theorem read_vec {D : Dec} (hD : Reads D) (v : List ℚ) (hv : ∀ x ∈ v, Double x) :
    readVecX D.real (flow (vec2str v false true)) = .ok (v.map (fun x : ℚ => (x : ℝ))) := by
  unfold flow
  rw [vec_text, C22_vecx]
  refine ⟨by simp, fun k y hk => ?_⟩
  rw [List.getElem?_map, Option.map_eq_some_iff] at hk
  obtain ⟨x, hx, rfl⟩ := hk
  refine ⟨fmtG 17 x, by simp [hx], ?_⟩
  rw [hD.real _ _ (C126_exact x (hv x (List.mem_of_getElem? hx)))]

theorem read_ints {D : Dec} (hD : Reads D) {w h : ℤ} (hw : IsInt w) (hh : IsInt h) :
    readVec D.int 2 (.seq [.scalar (fmtLd w), .scalar (fmtLd h)]) = .ok [w, h] := by
  rw [C22_vector_partial D.int 2 (by norm_num)]
  refine ⟨rfl, by simp, fun k v hk => ?_⟩
  match k, hk with
  | 0, hk =>
    cases hk
    exact ⟨_, rfl, hD.int _ hw.1 hw.2⟩
  | 1, hk =>
    cases hk
    exact ⟨_, rfl, hD.int _ hh.1 hh.2⟩
  | k + 2, hk => simp at hk

/-- The pose that is read. -/
noncomputable def readPoseRows (M : M4) : Matrix (Fin 4) (Fin 4) ℝ := fun i j => (val (fmtG 17 (M i j)) : ℝ)

theorem pose_near (M : M4) : PoseNear M (List.ofFn (fun i => List.ofFn (readPoseRows M i))) (readPoseRows M) :=
  ⟨rfl, fun i j => (val_G (M i j)).2⟩

theorem pose_items (M : M4) : items ("\n".toList ++ mat2str "    ".toList true (rowsOf M) ++ "\n  ".toList) =
    (rowsOf M).flatten.map (fmtG 17) := by
  have hb : ∀ l : List Char, l.all isSpace = true → ∀ c ∈ l, isSpace c = true := fun l h c hc => List.all_eq_true.mp h c hc
  have := cells_rows "    ".toList (hb _ (by decide)) true (rowsOf M) (by
    intro r hr
    obtain ⟨i, rfl⟩ := (List.mem_ofFn' _ _).mp hr
    simp) (ws := "\n".toList) (ws' := "\n  ".toList) (hb _ (by decide)) (hb _ (by decide)) (by unfold rowsOf; simp)
  exact items_of this (fun t ht => by obtain ⟨x, _, rfl⟩ := List.mem_map.mp ht; exact token_fmtG _ x)

theorem read_pose {D : Dec} (hD : Reads D) (M : M4) :
    readMat D.int D.real 4 (poseNode M) = .ok (List.ofFn (fun i => List.ofFn (readPoseRows M i))) := by
  have h4 : D.int "4".toList = some 4 := hD.int 4 (by norm_num) (by norm_num)
  have hn : MatrixNode D.int (poseNode M) 4 4 ((items ("\n".toList ++ mat2str "    ".toList true (rowsOf M) ++ "\n  ".toList)).map .scalar) :=
    ⟨_, _, _, rfl, ⟨[], _, rfl, by simp⟩, first_lookup.mpr rfl, first_lookup.mpr rfl, h4, h4⟩
  rw [C22_matrix _ hn, pose_items]
  have hl : (rowsOf M).flatten = List.ofFn (fun k : Fin 16 => M ⟨k / 4, by omega⟩ ⟨k % 4, by omega⟩) := rfl
  refine ⟨by rw [hl]; simp, by simp, fun i row hi => ?_⟩
  rw [List.getElem?_ofFn] at hi
  by_cases hi4 : i < 4
  · rw [dif_pos hi4] at hi
    cases hi
    refine ⟨List.length_ofFn, fun j v hj => ?_⟩
    rw [List.getElem?_ofFn] at hj
    by_cases hj4 : j < 4
    · rw [dif_pos hj4] at hj
      cases hj
      refine ⟨fmtG 17 (M ⟨i, hi4⟩ ⟨j, hj4⟩), ?_, real_G hD _⟩
      rw [hl, List.getElem?_map, List.getElem?_map, List.getElem?_ofFn]
      have : i * 4 + j < 16 := by omega
      rw [dif_pos this]
      simp only [Option.map_some]
      congr 4
      · exact Fin.ext (by simp; omega)
      · exact Fin.ext (by simp; omega)
    · rw [dif_neg hj4] at hj
      cases hj
  · rw [dif_neg hi4] at hi
    cases hi

/-- Reading a table of variables. -/
theorem table_of {D : Dec} {m l : List (Str × Y)} {sec : Str} {o : Bool} (hs : lookup m sec = some (.map l))
    {t v : List (Str × Ctor.Val)} (h : List.Forall₂ (fun d w => w.1 = d.1 ∧ ((∃ s, lookup l d.1 = some (.scalar s) ∧ D.like d.2 s = some w.2) ∨
      o = true ∧ lookup l d.1 = none ∧ w.2 = d.2)) t v) : TableIs D (.map m) sec o t v := by
  unfold TableIs
  refine h.imp (fun d w hw => ⟨hw.1, ?_⟩)
  rcases hw.2 with ⟨s, h1, h2⟩ | ⟨h1, h2, h3⟩
  · exact Or.inl ⟨s, reach_two hs h1, h2⟩
  · exact Or.inr ⟨h1, absent_two hs h2, h3⟩

end Yac.Save
