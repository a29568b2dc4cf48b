import Verif.Data.PreMore

/-!
C94 and C95: empty tracks, file names, directories, and files in format 2.
-/

namespace Yac.Data

open Yac.AprilGrid (Grid Line Row zeroRow writeRow)
open Yac.Text (isDig natOf fmtLd)

variable {K : Type} [Field K] {P Q G : Type}

/-- C94 without samples of the body: fine without grids, memory is read out of bounds otherwise. -/
theorem C94_nosamples (lerp : Int → P → Int → P → Int → Q) (one : P) (ts : G → Int) (grids : List G)
    (offset : Int) : lerpBodyPoses lerp one ts grids [] offset =
      if grids = [] then .ok ([], []) else .error .oob := by
  unfold lerpBodyPoses between
  dsimp only [List.head?_nil, List.getLast?_nil]
  split_ifs with h
  · rfl
  · rfl

example : lerpBodyPoses (fun _ (_ : Nat) _ _ _ => 0) 1 (id : Int → Int) [5] [] 0 = .error .oob := by
  rw [C94_nosamples, if_neg (by simp)]

theorem natOf_lt : ∀ (l : List Char), (∀ c ∈ l, isDig c = true) → natOf l < 10 ^ l.length := by
  intro l
  induction l using List.reverseRecOn with
  | nil => intro _; simp [natOf]
  | append_singleton l c ih =>
    intro h
    rw [Text.natOf_append, List.length_append, List.length_singleton, Nat.pow_succ]
    have h1 := ih (fun c hc => h c (by simp [hc]))
    have h2 := h c (by simp)
    simp only [isDig, Bool.and_eq_true, decide_eq_true_eq] at h2
    omega

/-- C95: an image is a file whose first nineteen characters (all of them for a shorter name) are
digits; its timestamp is the number they form, in 64 bit arithmetic; its grid is the file of that
name with the ending `.csv`. -/
theorem C95_names (dir name : List Char) :
    (isTs name = true ↔ ∀ (i : Nat) (c : Char), i < 19 → name[i]? = some c → '0' ≤ c ∧ c ≤ '9') ∧
    (isTs name = true → -2 ^ 63 ≤ tsOf name ∧ tsOf name < 2 ^ 63 ∧
      ∃ k : Int, tsOf name + k * 2 ^ 64 = natOf (name.take 19)) ∧
    gridPath dir name = dir ++ "/".toList ++ name.take 19 ++ ".csv".toList := by
  refine ⟨?_, ?_, ?_⟩
  · unfold isTs tsStr
    rw [List.all_eq_true]
    constructor
    · intro h i c hi hc
      have hm : c ∈ name.take 19 := by
        rw [List.mem_iff_getElem?]
        exact ⟨i, by rw [List.getElem?_take, if_pos hi, hc]⟩
      have := h c hm
      simp only [isDig, Bool.and_eq_true, decide_eq_true_eq] at this
      exact this
    · intro h c hc
      rw [List.mem_iff_getElem?] at hc
      obtain ⟨i, hi⟩ := hc
      rw [List.getElem?_take] at hi
      split_ifs at hi with h1
      have := h i c h1 hi
      simp only [isDig, Bool.and_eq_true, decide_eq_true_eq]
      exact this
  · intro h
    unfold isTs tsStr at h
    rw [List.all_eq_true] at h
    have h1 := natOf_lt _ h
    have h2 : (10 : Nat) ^ (name.take 19).length ≤ 10 ^ 19 :=
      Nat.pow_le_pow_right (by norm_num) (by simp)
    unfold tsOf tsStr
    split_ifs with hc
    · refine ⟨by omega, by exact_mod_cast hc, 0, by ring⟩
    · refine ⟨by omega, by omega, 1, by ring⟩
  · unfold gridPath tsStr
    simp

example : isTs "1403636579763555584.png".toList = true ∧
    tsOf "1403636579763555584.png".toList = 1403636579763555584 ∧ isTs "readme.txt".toList = false ∧
    tsOf "9999999999999999999.png".toList = -8446744073709551617 := by decide +kernel

/-- C95: the directory of a camera is the same with and without a slash at the end of the path; an
empty path is a read out of bounds. -/
theorem C95_directory (path : List Char) (cam : Int) (h : path ≠ []) (hs : path.getLast? ≠ some '/') :
    gridDir path cam = .ok (path ++ "/cam".toList ++ fmtLd cam) ∧
    gridDir (path ++ ['/']) cam = .ok (path ++ "/cam".toList ++ fmtLd cam) ∧
    gridDir [] cam = .error .oob := by
  refine ⟨?_, ?_, rfl⟩
  · unfold gridDir
    rw [List.getLast?_eq_some_getLast h] at hs ⊢
    dsimp only
    rw [if_neg (fun hc => hs (by rw [hc]))]
    simp
  · unfold gridDir
    rw [List.getLast?_append]
    simp

example : gridDir "/data".toList 2 = .ok "/data/cam2".toList := by decide +kernel

/-- A line of corners in format 2 that names a corner of the target. -/
def GoodLine (f : V2 K) (l : V2Line K) : Prop :=
  0 ≤ l.tag ∧ l.tag < f.rows * f.cols ∧ 0 ≤ l.corner ∧ l.corner < 4

/-- The row of a line. -/
def rowOf (l : V2Line K) : Row K := ⟨1, l.kx, l.ky, l.px, l.py, l.pz⟩

theorem fold_v2 (rows cols : Nat) : ∀ (ls : List (V2Line K)) (g : Grid K), g.tagRows = rows →
    g.tagCols = cols → (g.data = [] ∨ g.data.length = rows * cols * 4) →
    (∀ l ∈ ls, 0 ≤ l.tag ∧ l.tag < rows * cols ∧ 0 ≤ l.corner ∧ l.corner < 4) →
    (ls.map fun l => (l.tag, l.corner)).Nodup →
    ∃ data, ls.foldlM loadLine2 g = .ok
        { g with data := data, detected := g.detected || !ls.isEmpty,
                 nbDetections := g.nbDetections + ls.length } ∧
      (ls ≠ [] → data.length = rows * cols * 4) ∧ (ls = [] → data = g.data) ∧
      (∀ l ∈ ls, data[(l.tag * 4 + l.corner).toNat]? = some (rowOf l)) ∧
      (ls ≠ [] → ∀ i < rows * cols * 4, (∀ l ∈ ls, (i : Int) ≠ l.tag * 4 + l.corner) →
        data[i]? = (if g.data.isEmpty then List.replicate (rows * cols * 4) zeroRow else g.data)[i]?)
  | [], g, _, _, _, _, _ => ⟨g.data, by simp [List.foldlM_nil], by simp, by simp, by simp, by simp⟩
  | l :: ls, g, h1, h2, h3, h5, h6 => by
    obtain ⟨a1, a2, a3, a4⟩ := h5 l (by simp)
    have hid : l.tag * 4 + l.corner = ((l.tag * 4 + l.corner).toNat : Int) := by omega
    have hlt : (l.tag * 4 + l.corner).toNat < rows * cols * 4 := by
      have : l.tag * 4 + l.corner < ((rows * cols * 4 : Nat) : Int) := by
        push_cast
        omega
      omega
    generalize hn : (l.tag * 4 + l.corner).toNat = n at hid hlt
    obtain ⟨d0, hd0⟩ : ∃ d0, d0 = (if g.data.isEmpty then List.replicate (rows * cols * 4) zeroRow else g.data) :=
      ⟨_, rfl⟩
    have hd0l : d0.length = rows * cols * 4 := by
      rw [hd0]
      split_ifs with he
      · simp
      · rcases h3 with h3 | h3
        · rw [h3] at he; simp at he
        · exact h3
    have hstep : loadLine2 g l = .ok
        { g with data := d0.set n (rowOf l), detected := true,
                 nbDetections := g.nbDetections + 1 } := by
      unfold loadLine2
      rw [h1, h2, ← hd0, hid, AprilGrid.writeRow_nat _ _ _ (by rw [hd0l]; exact hlt), AprilGrid.ok_bind]
      rfl
    rw [List.map_cons, List.nodup_cons] at h6
    obtain ⟨data, b1, b2, b3, b4, b5⟩ := fold_v2 rows cols ls
      { g with data := d0.set n (rowOf l), detected := true, nbDetections := g.nbDetections + 1 }
      h1 h2 (.inr (by simp [hd0l])) (fun x hx => h5 x (by simp [hx])) h6.2
    have hne : (d0.set n (rowOf l)).isEmpty = false := by
      rw [List.isEmpty_eq_false_iff]
      intro hc
      have := congrArg List.length hc
      rw [List.length_set, hd0l, List.length_nil] at this
      omega
    have hrest : ∀ x ∈ ls, (n : Int) ≠ x.tag * 4 + x.corner := by
      intro x hx hc
      obtain ⟨c1, c2, c3, c4⟩ := h5 x (by simp [hx])
      apply h6.1
      rw [List.mem_map]
      refine ⟨x, hx, ?_⟩
      rw [← hid] at hc
      have : x.tag = l.tag := by omega
      have : x.corner = l.corner := by omega
      simp [*]
    have hkeep : ∀ i < rows * cols * 4, (∀ x ∈ ls, (i : Int) ≠ x.tag * 4 + x.corner) →
        data[i]? = (d0.set n (rowOf l))[i]? := by
      intro i hi hx
      by_cases he : ls = []
      · rw [b3 he]
      · have := b5 he i hi hx
        simp only [hne] at this
        simpa using this
    refine ⟨data, ?_, ?_, by simp, ?_, ?_⟩
    · rw [List.foldlM_cons, hstep, AprilGrid.ok_bind, b1]
      congr 2
      · simp
      · rw [List.length_cons]
        push_cast
        ring
    · intro _
      by_cases he : ls = []
      · rw [b3 he]; simp [hd0l]
      · exact b2 he
    · intro x hx
      rw [List.mem_cons] at hx
      rcases hx with rfl | hx
      · rw [hn, hkeep n hlt hrest, List.getElem?_set_self (by rw [hd0l]; exact hlt)]
      · exact b4 x hx
    · intro _ i hi hx
      rw [hkeep i hi (fun x hxm => hx x (by simp [hxm])), ← hd0, List.getElem?_set_ne]
      intro hc
      apply hx l (by simp)
      rw [hid, hc]

/-- C95: what is read from a file in format 2 that has as many lines as it says, each for another
corner of the target: the target and the timestamp of the file, the number of corners, for every
line its measurement and object point, and nothing for the others; lines after these are not
read. -/
theorem C95_v2_load (f : V2 K) (h : f.corners ≤ f.lines.length)
    (hg : ∀ l ∈ f.lines.take f.corners, GoodLine f l)
    (hd : ((f.lines.take f.corners).map fun l => (l.tag, l.corner)).Nodup) :
    ∃ g, loadFile true (.v2 f) = .ok g ∧ g.timestamp = f.ts ∧ g.tagRows = f.rows ∧
      g.tagCols = f.cols ∧ g.tagSize = f.size ∧ g.tagSpacing = f.spacing ∧
      g.nbDetections = f.corners ∧ (g.detected = true ↔ f.corners ≠ 0) ∧
      (∀ l ∈ f.lines.take f.corners, g.data[(l.tag * 4 + l.corner).toNat]? = some (rowOf l)) ∧
      (f.corners ≠ 0 → g.data.length = f.rows * f.cols * 4 ∧ ∀ i < f.rows * f.cols * 4,
        (∀ l ∈ f.lines.take f.corners, (i : Int) ≠ l.tag * 4 + l.corner) →
        g.data[i]? = some zeroRow) := by
  obtain ⟨data, b1, b2, _, b4, b5⟩ := fold_v2 f.rows f.cols (f.lines.take f.corners)
    (withTarget AprilGrid.default f.ts f.rows f.cols f.size f.spacing) rfl rfl (.inl rfl) hg hd
  have hlen : (f.lines.take f.corners).length = f.corners := by simp [h]
  have hnil : f.lines.take f.corners = [] ↔ f.corners = 0 := by
    rw [← List.length_eq_zero_iff, hlen]
  obtain ⟨g, hgd⟩ : ∃ g, g = { withTarget AprilGrid.default f.ts f.rows f.cols f.size f.spacing with
      data := data,
      detected := (withTarget AprilGrid.default f.ts f.rows f.cols f.size f.spacing).detected ||
        !(f.lines.take f.corners).isEmpty,
      nbDetections := (withTarget AprilGrid.default f.ts f.rows f.cols f.size f.spacing).nbDetections +
        (f.lines.take f.corners).length } := ⟨_, rfl⟩
  rw [← hgd] at b1
  refine ⟨g, ?_, by rw [hgd]; rfl, by rw [hgd]; rfl, by rw [hgd]; rfl, by rw [hgd]; rfl,
    by rw [hgd]; rfl, ?_, ?_, by rw [hgd]; exact b4, ?_⟩
  · unfold loadFile
    rw [if_pos rfl]
    unfold loadv2
    dsimp only
    rw [b1, AprilGrid.ok_bind, if_neg (by omega)]
  · rw [hgd]
    show 0 + _ = _
    rw [hlen, zero_add]
  · rw [hgd]
    show (false || !_) = true ↔ _
    rw [Bool.false_or, Bool.not_eq_true', List.isEmpty_eq_false_iff, not_iff_not, hnil]
  · intro hc
    have hne : f.lines.take f.corners ≠ [] := fun he => hc (hnil.1 he)
    rw [hgd]
    refine ⟨b2 hne, fun i hi hx => ?_⟩
    show data[i]? = _
    rw [b5 hne i hi hx]
    show (List.replicate _ zeroRow)[i]? = _
    rw [List.getElem?_replicate, if_pos hi]

/-- Fewer lines than the file says is an error. -/
theorem C95_v2_short (f : V2 K) (h : f.lines.length < f.corners)
    (hg : ∀ l ∈ f.lines, GoodLine f l) (hd : (f.lines.map fun l => (l.tag, l.corner)).Nodup) :
    loadFile true (.v2 f) = .error .fatal := by
  have ht : f.lines.take f.corners = f.lines := List.take_of_length_le (by omega)
  obtain ⟨data, b1, _⟩ := fold_v2 f.rows f.cols f.lines
    (withTarget AprilGrid.default f.ts f.rows f.cols f.size f.spacing) rfl rfl (.inl rfl) hg hd
  unfold loadFile
  rw [if_pos rfl]
  unfold loadv2
  dsimp only
  rw [ht, b1, AprilGrid.ok_bind, if_pos h]

/-- A file with a corner of each of two tags, and a line more than it says. -/
def twoTags : V2 ℚ := ⟨7, 1, 2, 1, 0, 2, [⟨0, 1, 10, 11, 0, 1, 0⟩, ⟨1, 0, 20, 21, 1, 0, 0⟩, ⟨9, 9, 0, 0, 0, 0, 0⟩]⟩

example : twoTags.corners ≤ twoTags.lines.length ∧
    (∀ l ∈ twoTags.lines.take twoTags.corners, GoodLine twoTags l) ∧
    ((twoTags.lines.take twoTags.corners).map fun l => (l.tag, l.corner)).Nodup := by
  refine ⟨by decide, ?_, by decide⟩
  intro l hl
  simp only [twoTags, List.take_succ_cons, List.take_zero, List.mem_cons, List.not_mem_nil, or_false] at hl
  rcases hl with rfl | rfl <;> simp [GoodLine, twoTags]

end Yac.Data
