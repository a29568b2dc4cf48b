import Verif.Csv.Spec
import Verif.Fmt.Props
import Verif.Save.ViTables
import Verif.Text.CLemmas
import Verif.Text.Props

/-! # C130: exported CSV files say what was exported -/

namespace Yac.Csv
open Yac.Num Yac.Text Yac.Fmt Yac.Geom Matrix

/-! ### Splitting -/

theorem split_ne (d : Char) (l : List Char) : split d l ≠ [] := by
  cases l with
  | nil => simp [split]
  | cons c cs =>
    unfold split
    split_ifs
    · simp
    · cases split d cs <;> simp

theorem split_last {d : Char} {a : List Char} (h : d ∉ a) : split d a = [a] := by
  induction a with
  | nil => rfl
  | cons c cs ih =>
    rw [List.mem_cons, not_or] at h
    unfold split
    rw [if_neg (fun e => h.1 e.symm), ih h.2]

theorem split_cons {d : Char} {a : List Char} (h : d ∉ a) (r : List Char) : split d (a ++ d :: r) = a :: split d r := by
  induction a with
  | nil => simp [split]
  | cons c cs ih =>
    rw [List.mem_cons, not_or] at h
    show split d (c :: (cs ++ d :: r)) = _
    rw [split, if_neg (fun e => h.1 e.symm), ih h.2]

/-- A cell: not empty text without separators. -/
def Cell (c : List Char) : Prop := ',' ∉ c ∧ '\n' ∉ c

theorem cell_token {t : List Char} (h : Token t) : Cell t :=
  ⟨fun hc => (h.2 _ hc).1 rfl, fun hc => absurd (h.2 _ hc).2 (by decide)⟩

theorem split_line {cs : List (List Char)} (h : ∀ c ∈ cs, Cell c) (hn : cs ≠ []) : ∃ t, line cs = t ++ ['\n'] ∧ '\n' ∉ t ∧ split ',' t = cs := by
  induction cs with
  | nil => exact absurd rfl hn
  | cons c cs ih =>
    have hc := h c (by simp)
    cases cs with
    | nil => exact ⟨c, rfl, hc.2, split_last hc.1⟩
    | cons c' cs =>
      obtain ⟨t, h1, h2, h3⟩ := ih (fun x hx => h x (by simp [hx])) (by simp)
      refine ⟨c ++ ',' :: t, ?_, ?_, ?_⟩
      · show c ++ ',' :: line (c' :: cs) = _
        rw [h1]
        simp
      · simp only [List.mem_append, List.mem_cons, not_or]
        exact ⟨hc.2, by decide, h2⟩
      · rw [split_cons hc.1, h3]

theorem split_lines (rows : List (List (List Char))) (h : ∀ r ∈ rows, r ≠ [] ∧ ∀ c ∈ r, Cell c) (rest : List Char) :
    ∃ ts : List (List Char), split '\n' (rows.flatMap line ++ rest) = ts ++ split '\n' rest ∧ ts.map (split ',') = rows := by
  induction rows with
  | nil => exact ⟨[], rfl, rfl⟩
  | cons r rows ih =>
    obtain ⟨ts, h1, h2⟩ := ih (fun x hx => h x (by simp [hx]))
    obtain ⟨t, e1, e2, e3⟩ := split_line (h r (by simp)).2 (h r (by simp)).1
    refine ⟨t :: ts, ?_, ?_⟩
    · rw [List.flatMap_cons, e1]
      simp only [List.append_assoc, List.cons_append, List.nil_append]
      rw [split_cons e2, h1]
    · rw [List.map_cons, e3, h2]

theorem sheet_lines (rows : List (List (List Char))) (h : ∀ r ∈ rows, r ≠ [] ∧ ∀ c ∈ r, Cell c) :
    Finished (rows.flatMap line) ∧ sheet (rows.flatMap line) = rows := by
  obtain ⟨ts, h1, h2⟩ := split_lines rows h []
  rw [List.append_nil] at h1
  have e : split '\n' [] = [[]] := rfl
  rw [e] at h1
  refine ⟨?_, ?_⟩
  · unfold Finished
    rw [h1]
    simp
  · unfold sheet
    rw [h1, List.dropLast_concat, h2]

/-- A printed cell and its meaning. -/
def Says (m : List Char → Prop) (c : List Char) : Prop := Cell c ∧ m c

theorem file_is {file : List Char} {cells : List (List (List Char))} {rows : List (List (List Char → Prop))} (hf : file = cells.flatMap line)
    (hn : ∀ r ∈ cells, r ≠ []) (h : List.Forall₂ (List.Forall₂ Says) rows cells) : FileIs file rows := by
  have hc : ∀ r ∈ cells, r ≠ [] ∧ ∀ c ∈ r, Cell c := by
    intro r hr
    refine ⟨hn r hr, ?_⟩
    obtain ⟨ms, -, hm⟩ : ∃ ms, ms ∈ rows ∧ List.Forall₂ Says ms r := by
      clear hf hn
      induction h with
      | nil => cases hr
      | cons h1 _ ih =>
        rcases List.mem_cons.mp hr with rfl | hr
        · exact ⟨_, by simp, h1⟩
        · obtain ⟨ms, h2, h3⟩ := ih hr
          exact ⟨ms, by simp [h2], h3⟩
    intro c hc
    clear hf hn hr h
    induction hm with
    | nil => cases hc
    | cons h1 _ ih =>
      rcases List.mem_cons.mp hc with rfl | hc
      · exact h1.1
      · exact ih hc
  subst hf
  obtain ⟨h1, h2⟩ := sheet_lines cells hc
  refine ⟨h1, ?_⟩
  rw [h2]
  exact h.imp (fun _ _ hr => hr.imp (fun _ _ hs => hs.2))

theorem says_six (x : ℚ) : Says (SixCell x) (g6 x) := ⟨cell_token (token_fmtG 6 x), C126_six x⟩
theorem says_fix (x : ℚ) : Says (FixCell x) (fmtF x) := ⟨cell_token (token_fmtF x), C126_f x⟩

theorem readInt_fmtLd (n : ℤ) : readInt (fmtLd n) = some n := by
  have := parseInt_fmtLd n [] [] (by intro c hc; cases hc) (by intro c hc; cases hc)
  simp only [List.nil_append, List.append_nil] at this
  unfold readInt
  rw [this]
  simp only [decide_eq_true_eq]
  by_cases hn : n < 0
  · rw [if_pos hn]; congr 1; omega
  · rw [if_neg hn]; congr 1; omega

theorem says_int (n : ℤ) : Says (IntCell n) (fmtLd n) := ⟨cell_token (Save.token_fmtLd n), readInt_fmtLd n⟩

theorem says_nat (n : ℕ) : Says (IntCell n) (natText n) := by
  rw [← Save.fmtLd_nat]
  exact says_int n

theorem says_u64 {n : ℤ} (h0 : 0 ≤ n) (h1 : n < 2 ^ 63) : Says (IntCell n) (fmtU64 n) := by
  have : (n % 2 ^ 64).toNat = n.toNat := by
    rw [Int.emod_eq_of_lt h0 (by omega)]
  unfold fmtU64
  rw [this]
  have := says_nat n.toNat
  rwa [Int.toNat_of_nonneg h0] at this

theorem rows_map {α : Type} (l : List α) (m : α → List (List Char → Prop)) (c : α → List (List Char)) (h : ∀ a ∈ l, List.Forall₂ Says (m a) (c a)) :
    List.Forall₂ (List.Forall₂ Says) (l.map m) (l.map c) := by
  induction l with
  | nil => exact .nil
  | cons a l ih => exact .cons (h a (by simp)) (ih (fun x hx => h x (by simp [hx])))

theorem file_map {α : Type} {l : List α} {text : α → List Char} (m : α → List (List Char → Prop)) (c : α → List (List Char))
    (ht : ∀ a, text a = line (c a)) (hn : ∀ a, c a ≠ []) (h : ∀ a ∈ l, List.Forall₂ Says (m a) (c a)) : FileIs (l.flatMap text) (l.map m) := by
  refine file_is (cells := l.map c) ?_ ?_ (rows_map l m c h)
  · rw [List.flatMap_map]
    congr 1
    funext a
    exact ht a
  · intro r hr
    obtain ⟨a, -, rfl⟩ := List.mem_map.mp hr
    exact hn a

/-! ### The writers of util/data.cpp -/

/-- `vec2csv` and `ts2csv`. -/
theorem C130_vectors (opened : Bool) (data : List (Vec3 ℚ)) (ts : List ℤ) :
    (opened = true → ∃ f g, vec2csv opened data = some f ∧ FileIs f (data.map six3) ∧
      ts2csv opened ts = some g ∧ FileIs g (ts.map fun t => [IntCell t])) ∧
    (opened = false → vec2csv opened data = none ∧ ts2csv opened ts = none) := by
  refine ⟨fun h => ⟨_, _, if_pos h, ?_, if_pos h, ?_⟩, fun h => ?_⟩
  · exact file_map _ (fun v => [g6 (v 0), g6 (v 1), g6 (v 2)]) (fun v => rfl) (fun v => by simp)
      (fun v _ => .cons (says_six _) <| .cons (says_six _) <| .cons (says_six _) .nil)
  · exact file_map _ (fun t => [fmtLd t]) (fun t => rfl) (fun t => by simp) (fun t _ => .cons (says_int _) .nil)
  · subst h
    exact ⟨rfl, rfl⟩

theorem zipRows_eq {α : Type} (row : ℤ → α → List Char) (ts : List ℤ) : ∀ ys : List α,
    zipRows row ts ys = if ts.length ≤ ys.length then .ok ((ts.zip ys).flatMap fun e => row e.1 e.2) else .error .oob := by
  induction ts with
  | nil => intro ys; simp [zipRows]
  | cons t ts ih =>
    intro ys
    cases ys with
    | nil => simp [zipRows]
    | cons y ys =>
      unfold zipRows
      rw [ih]
      by_cases h : ts.length ≤ ys.length
      · rw [if_pos h, if_pos (by simpa using h)]
        rfl
      · rw [if_neg h, if_neg (by simpa using h)]
        rfl

theorem zip_pairs {α β : Type} (l : List (α × β)) : (l.map Prod.fst).zip (l.map Prod.snd) = l := by
  induction l with
  | nil => rfl
  | cons a l ih => simp [ih]

theorem zipRows_pairs {α : Type} (row : ℤ → α → List Char) (l : List (ℤ × α)) :
    zipRows row (l.map Prod.fst) (l.map Prod.snd) = .ok (l.flatMap fun e => row e.1 e.2) := by
  rw [zipRows_eq, if_pos (by simp), zip_pairs]

/-- `save_data` with vectors and with quaternions: every sample in its row. -/
theorem C130_data (l : List (ℤ × Vec3 ℚ)) (k : List (ℤ × Quat ℚ)) :
    (∃ f, saveVecs true (l.map Prod.fst) (l.map Prod.snd) = .ok f ∧ FileIs f (l.map fun e => IntCell e.1 :: six3 e.2)) ∧
    ∃ g, saveQuats true (k.map Prod.fst) (k.map Prod.snd) = .ok g ∧
      FileIs g (k.map fun e => [IntCell e.1, SixCell e.2.w, SixCell e.2.x, SixCell e.2.y, SixCell e.2.z]) := by
  refine ⟨⟨_, zipRows_pairs _ l, ?_⟩, ⟨_, zipRows_pairs _ k, ?_⟩⟩
  · exact file_map _ (fun e => [fmtLd e.1, g6 (e.2 0), g6 (e.2 1), g6 (e.2 2)]) (fun e => rfl) (fun e => by simp)
      (fun e _ => .cons (says_int _) <| .cons (says_six _) <| .cons (says_six _) <| .cons (says_six _) .nil)
  · exact file_map _ (fun e => [fmtLd e.1, g6 e.2.w, g6 e.2.x, g6 e.2.y, g6 e.2.z]) (fun e => rfl) (fun e => by simp)
      (fun e _ => .cons (says_int _) <| .cons (says_six _) <| .cons (says_six _) <| .cons (says_six _) <| .cons (says_six _) .nil)

/-- More values than times: the rest is left out silently; fewer: a read past the end; no file: the program ends. -/
theorem C130_lengths (ts : List ℤ) (y z : List (Vec3 ℚ)) (q : List (Quat ℚ)) :
    (y.length < ts.length → saveVecs true ts y = .error .oob) ∧ (q.length < ts.length → saveQuats true ts q = .error .oob) ∧
    (y.length = ts.length → saveVecs true ts (y ++ z) = saveVecs true ts y) ∧
    saveVecs false ts y = .error .fatal ∧ saveQuats false ts q = .error .fatal := by
  refine ⟨fun h => ?_, fun h => ?_, fun h => ?_, rfl, rfl⟩
  · show zipRows _ _ _ = _
    rw [zipRows_eq, if_neg (by omega)]
  · show zipRows _ _ _ = _
    rw [zipRows_eq, if_neg (by omega)]
  · show zipRows _ _ _ = zipRows _ _ _
    rw [zipRows_eq, zipRows_eq, if_pos (by simp; omega), if_pos (by omega)]
    congr 2
    rw [show ts = ts ++ [] by simp, List.zip_append (by simp [h])]
    simp

/-- `save_features` and `save_extrinsics`. -/
theorem C130_fixed (quatOf : Mat4 ℚ → Quat ℚ) (features : List (Vec3 ℚ)) (T : Mat4 ℚ) :
    (∃ f, saveFeatures true features = .ok f ∧ FileIs f (features.map fix3)) ∧
    ∃ g, saveExtrinsics quatOf true T = .ok g ∧ FileIs g
      [["#rx", "ry", "rz", "qx", "qy", "qz", "qw"].map Named,
        fix3 (tfTrans T) ++ [FixCell (quatOf T).x, FixCell (quatOf T).y, FixCell (quatOf T).z, FixCell (quatOf T).w]] := by
  refine ⟨⟨_, rfl, ?_⟩, ⟨_, rfl, ?_⟩⟩
  · exact file_map _ (fun v => [fmtF (v 0), fmtF (v 1), fmtF (v 2)]) (fun v => rfl) (fun v => by simp)
      (fun v _ => .cons (says_fix _) <| .cons (says_fix _) <| .cons (says_fix _) .nil)
  · refine file_is (cells := [["#rx", "ry", "rz", "qx", "qy", "qz", "qw"].map String.toList,
      [fmtF (tfTrans T 0), fmtF (tfTrans T 1), fmtF (tfTrans T 2), fmtF (quatOf T).x, fmtF (quatOf T).y, fmtF (quatOf T).z, fmtF (quatOf T).w]])
      (by rw [List.flatMap_cons, List.flatMap_cons, List.flatMap_nil, List.append_nil]; rfl)
      (by simp) (.cons ?_ (.cons ?_ .nil))
    · have : ∀ s ∈ ["#rx", "ry", "rz", "qx", "qy", "qz", "qw"], Says (Named s) s.toList := by
        intro s hs
        refine ⟨?_, rfl⟩
        revert s
        unfold Cell
        decide
      exact List.forall₂_map_left_iff.mpr (List.forall₂_map_right_iff.mpr (List.forall₂_same.mpr this))
    · exact .cons (says_fix _) <| .cons (says_fix _) <| .cons (says_fix _) <| .cons (says_fix _) <| .cons (says_fix _) <| .cons (says_fix _) <|
        .cons (says_fix _) .nil

/-- A file that cannot be opened is written to nevertheless. -/
theorem C130_unopened_refuted (quatOf : Mat4 ℚ → Quat ℚ) (features : List (Vec3 ℚ)) (T : Mat4 ℚ) (d : SimData) :
    saveFeatures false features = .error .oob ∧ saveExtrinsics quatOf false T = .error .oob ∧ simSave quatOf false d = .error .oob := ⟨rfl, rfl, rfl⟩

end Yac.Csv
