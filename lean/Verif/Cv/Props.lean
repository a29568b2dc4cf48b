import Verif.Cv.Lemmas
import Mathlib.Data.List.Sort

/-! C105: feature grids; C106: matrix conversions.  yac/lib/util/cv.cpp. -/

namespace Yac.Cv

/-- A `cv::sortIdx` for the examples: a stable sort of the indices. -/
def stableSort (l : List ℤ) : List Nat :=
  (List.range l.length).insertionSort fun i j => l.getD j 0 ≤ l.getD i 0

theorem stableSort_ok : SortIdx stableSort := by
  intro l
  refine ⟨List.perm_insertionSort _ _, ?_⟩
  rw [List.pairwise_map]
  haveI : Std.Total fun i j => l.getD j 0 ≤ l.getD i 0 := ⟨fun i j => by omega⟩
  haveI : IsTrans ℕ fun i j => l.getD j 0 ≤ l.getD i 0 := ⟨fun i j k h1 h2 => by omega⟩
  exact List.pairwise_insertionSort (fun i j => l.getD j 0 ≤ l.getD i 0) _

/-- **C105.** `sort_keypoints` returns the requested number of keypoints (all of them for the limit
zero or a limit beyond their number), in descending order of their responses rounded towards zero,
and leaves out none with a larger rounded response. -/
theorem C105_sort {s : List ℤ → List Nat} (hs : SortIdx s) (kps : List KP) (limit : Nat) :
    ∃ out, sortKeypoints s kps limit = .ok out ∧
      Best (if limit = 0 then kps.length else limit) kps out :=
  sortKeypoints_best hs kps limit

example : sortKeypoints stableSort [⟨0, 0, 3⟩, ⟨1, 1, 7⟩, ⟨2, 2, 5⟩] 2 =
    .ok [⟨1, 1, 7⟩, ⟨2, 2, 5⟩] := by decide +kernel

/-- For whole responses (as FAST gives) the order is that of the responses. -/
theorem C105_sort_whole {s : List ℤ → List Nat} (hs : SortIdx s) (kps : List KP) (limit : Nat)
    (hw : ∀ k ∈ kps, ∃ n : ℤ, k.resp = n) :
    ∃ out rest, sortKeypoints s kps limit = .ok out ∧ (out ++ rest).Perm kps ∧
      out.Pairwise (fun a b => b.resp ≤ a.resp) ∧ ∀ a ∈ out, ∀ b ∈ rest, b.resp ≤ a.resp := by
  obtain ⟨out, h1, _, h2, rest, h3, h4⟩ := sortKeypoints_best hs kps limit
  have key : ∀ k ∈ kps, k.resp = (trunc k.resp : ℚ) := by
    intro k hk
    obtain ⟨n, hn⟩ := hw k hk
    rw [hn]
    unfold trunc
    split_ifs <;> simp
  have hout : ∀ a ∈ out, a ∈ kps := fun a ha => (h3.mem_iff).1 (by simp [ha])
  have hrest : ∀ a ∈ rest, a ∈ kps := fun a ha => (h3.mem_iff).1 (by simp [ha])
  refine ⟨out, rest, h1, h3, ?_, ?_⟩
  · apply List.Pairwise.imp_of_mem _ h2
    intro a b ha hb h
    rw [key a (hout a ha), key b (hout b hb)]
    exact_mod_cast h
  · intro a ha b hb
    rw [key a (hout a ha), key b (hrest b hb)]
    exact_mod_cast h4 a ha b hb

example : ∀ k ∈ [(⟨0, 0, 3⟩ : KP), ⟨1, 1, 7⟩], ∃ n : ℤ, k.resp = n := by
  intro k hk
  simp only [List.mem_cons, List.not_mem_nil, or_false] at hk
  rcases hk with rfl | rfl
  · exact ⟨3, by norm_num⟩
  · exact ⟨7, by norm_num⟩

/-- For other responses it is not: the stronger of two keypoints can be dropped. -/
theorem C105_sort_refuted :
    ¬ ∀ (s : List ℤ → List Nat), SortIdx s → ∀ (kps : List KP) (limit : Nat) (out : List KP),
      sortKeypoints s kps limit = .ok out →
      ∀ a ∈ out, ∀ b ∈ kps, b ∉ out → b.resp ≤ a.resp := by
  intro h
  have h1 : sortKeypoints stableSort [⟨0, 0, 1 / 10⟩, ⟨1, 1, 9 / 10⟩] 1 =
      .ok [⟨0, 0, 1 / 10⟩] := by decide +kernel
  have := h _ stableSort_ok _ _ _ h1 ⟨0, 0, 1 / 10⟩ (by simp) ⟨1, 1, 9 / 10⟩ (by simp)
    (by simp)
  norm_num at this

/-- **C105.** For a grid no finer than the image, `grid_fast` cuts the image into cells that cover
every pixel exactly once and returns, cell by cell, the best keypoints found in the cell: as many
as the limit per cell allows, but at least one if there is one. -/
theorem C105_fast {fast : Roi → List KP} {s : List ℤ → List Nat} (hs : SortIdx s)
    {W H maxKps rows cols : Nat} (hr : 0 < rows) (hc : 0 < cols) (hrH : rows ≤ H) (hcW : cols ≤ W) :
    ∃ cs outs, Tiles W H cs ∧ gridFast fast s W H maxKps rows cols = .ok outs.flatten ∧
      List.Forall₂ (fun r out => ∃ chosen, out = chosen.map (place r) ∧
        Best (max 1 (perCell maxKps rows cols)) (fast r) chosen) cs outs := by
  have hdx : 0 < W / cols := Nat.div_pos hcW hc
  have hdy : 0 < H / rows := Nat.div_pos hrH hr
  unfold gridFast
  rw [gridParams_ok hr hc]
  dsimp only
  rw [gridCells_ok (by omega) (by omega) hdx hdy]
  dsimp only
  obtain ⟨outs, h1, h2⟩ := overCells_ok
    (f := fastCell fast s (perCell maxKps rows cols))
    (P := fun r out => ∃ chosen, out = chosen.map (place r) ∧
        Best (max 1 (perCell maxKps rows cols)) (fast r) chosen)
    ((starts (W + 1) W (W / cols) 0).flatMap fun x =>
      (starts (H + 1) H (H / rows) 0).map fun y => cell W H (W / cols) (H / rows) x y) (by
      intro r _
      obtain ⟨o, ho, hb⟩ := sortKeypoints_best hs (fast r) 0
      rw [if_pos rfl] at hb
      refine ⟨_, ?_, o.take (max 1 (perCell maxKps rows cols)), rfl, best_take hb le_rfl⟩
      rw [fastCell, ho]
      dsimp only
      rw [pushLoop_eq r _ o 0 (by omega), Nat.sub_zero])
  exact ⟨_, outs, tiles_cells hdx hdy, h1, h2⟩

/-- The detector of the examples: the top left pixel of the region and the one to its right. -/
def twoCorners : Roi → List KP := fun r =>
  if r.w = 0 ∨ r.h = 0 then [] else if r.w = 1 then [⟨0, 0, 2⟩] else [⟨0, 0, 2⟩, ⟨1, 0, 5⟩]

example : gridFast twoCorners stableSort 7 4 4 2 2 =
    .ok [(1, 0), (1, 2), (4, 0), (4, 2), (6, 0), (6, 2)] := by decide +kernel

/-- **C105.** `grid_good` likewise: the first corners of each cell in the detector's order, under
the part of the mask that lies over the cell. -/
theorem C105_good {good : Roi → ℤ → Option (ℤ → ℤ → Bool) → List KP}
    {W H maxKps rows cols : Nat} (m : Mask) (hm : m.rows = 0 ∨ (W ≤ m.cols ∧ H ≤ m.rows))
    (hr : 0 < rows) (hc : 0 < cols) (hrH : rows ≤ H) (hcW : cols ≤ W) :
    ∃ cs outs, Tiles W H cs ∧ gridGood good m W H maxKps rows cols = .ok outs.flatten ∧
      List.Forall₂ (fun r out => ∃ sm : Option (ℤ → ℤ → Bool),
        sm = (if m.rows = 0 then none else some fun u v => m.on (u + r.x) (v + r.y)) ∧
        out = ((good r maxKps sm).take (max 1 (perCell maxKps rows cols))).map (place r))
        cs outs := by
  have hdx : 0 < W / cols := Nat.div_pos hcW hc
  have hdy : 0 < H / rows := Nat.div_pos hrH hr
  unfold gridGood
  rw [gridParams_ok hr hc]
  dsimp only
  rw [gridCells_ok (by omega) (by omega) hdx hdy]
  dsimp only
  have ht := tiles_cells (W := W) (H := H) hdx hdy
  obtain ⟨outs, h1, h2⟩ := overCells_ok
    (f := goodCell good maxKps m (perCell maxKps rows cols))
    (P := fun r out => ∃ sm : Option (ℤ → ℤ → Bool),
        sm = (if m.rows = 0 then none else some fun u v => m.on (u + r.x) (v + r.y)) ∧
        out = ((good r maxKps sm).take (max 1 (perCell maxKps rows cols))).map (place r))
    ((starts (W + 1) W (W / cols) 0).flatMap fun x =>
      (starts (H + 1) H (H / rows) 0).map fun y => cell W H (W / cols) (H / rows) x y) (by
      intro r hr
      obtain ⟨_, _, hx, hy⟩ := ht.2.1 r hr
      refine ⟨_, ?_, _, rfl, rfl⟩
      unfold goodCell subMask
      by_cases h0 : m.rows = 0
      · rw [if_pos h0, if_pos h0]
        dsimp only
        rw [pushLoop_eq r _ _ 0 (by omega), Nat.sub_zero]
      · rw [if_neg h0, if_neg h0, if_pos (by omega)]
        dsimp only
        rw [pushLoop_eq r _ _ 0 (by omega), Nat.sub_zero])
  exact ⟨_, outs, ht, h1, h2⟩

example : gridGood (fun r _ _ => twoCorners r) ⟨0, 0, fun _ _ => false⟩ 6 4 4 2 2 =
    .ok [(0, 0), (0, 2), (3, 0), (3, 2)] := by decide +kernel

theorem mem_flatten_forall2 {P : Roi → List (ℚ × ℚ) → Prop} {cs : List Roi}
    {outs : List (List (ℚ × ℚ))} (h : List.Forall₂ P cs outs) {p : ℚ × ℚ} (hp : p ∈ outs.flatten) :
    ∃ r ∈ cs, ∃ out, P r out ∧ p ∈ out := by
  induction h with
  | nil => simp at hp
  | cons h1 _ ih =>
    rw [List.flatten_cons, List.mem_append] at hp
    rcases hp with hp | hp
    · exact ⟨_, by simp, _, h1, hp⟩
    · obtain ⟨r, hr, out, h2, h3⟩ := ih hp
      exact ⟨r, by simp [hr], out, h2, h3⟩

theorem place_inside {W H : Nat} {r : Roi} {k : KP} (h : InRegion r k) (hx : r.x + r.w ≤ W)
    (hy : r.y + r.h ≤ H) : 0 ≤ (place r k).1 ∧ (place r k).1 < W ∧ 0 ≤ (place r k).2 ∧
      (place r k).2 < H := by
  obtain ⟨h1, h2, h3, h4⟩ := h
  have hx' : ((r.x : ℚ) + r.w) ≤ W := by exact_mod_cast hx
  have hy' : ((r.y : ℚ) + r.h) ≤ H := by exact_mod_cast hy
  have p1 : (0 : ℚ) ≤ r.x := Nat.cast_nonneg _
  have p2 : (0 : ℚ) ≤ r.y := Nat.cast_nonneg _
  unfold place
  dsimp only
  refine ⟨by linarith, by linarith, by linarith, by linarith⟩

/-- **C105.** Every point either function returns is a point of the image, and with a mask those of
`grid_good` are points of the mask. -/
theorem C105_inside {fast : Roi → List KP} {good : Roi → ℤ → Option (ℤ → ℤ → Bool) → List KP}
    (hf : FastOk fast) (hg : GoodOk good) {s : List ℤ → List Nat} (hs : SortIdx s)
    {W H maxKps rows cols : Nat} (m : Mask) (hm : m.rows = 0 ∨ (W ≤ m.cols ∧ H ≤ m.rows))
    (hr : 0 < rows) (hc : 0 < cols) (hrH : rows ≤ H) (hcW : cols ≤ W) {a b : List (ℚ × ℚ)}
    (ha : gridFast fast s W H maxKps rows cols = .ok a)
    (hb : gridGood good m W H maxKps rows cols = .ok b) :
    (∀ p ∈ a ++ b, 0 ≤ p.1 ∧ p.1 < W ∧ 0 ≤ p.2 ∧ p.2 < H) ∧
      (m.rows ≠ 0 → ∀ p ∈ b, m.on ⌊p.1⌋ ⌊p.2⌋ = true) := by
  obtain ⟨cs, outs, ht, h1, h2⟩ := C105_fast (fast := fast) (maxKps := maxKps) hs hr hc hrH hcW
  obtain ⟨cs', outs', ht', h1', h2'⟩ := C105_good (good := good) (maxKps := maxKps) m hm hr hc hrH hcW
  rw [ha] at h1
  rw [hb] at h1'
  cases h1
  cases h1'
  refine ⟨?_, ?_⟩
  · intro p hp
    rcases List.mem_append.1 hp with hp | hp
    · obtain ⟨r, hr', out, ⟨chosen, rfl, _, _, rest, hperm, _⟩, hpo⟩ := mem_flatten_forall2 h2 hp
      obtain ⟨k, hk, rfl⟩ := List.mem_map.1 hpo
      obtain ⟨_, _, hx, hy⟩ := ht.2.1 r hr'
      exact place_inside (hf r k ((hperm.mem_iff).1 (by simp [hk]))) hx hy
    · obtain ⟨r, hr', out, ⟨sm, _, rfl⟩, hpo⟩ := mem_flatten_forall2 h2' hp
      obtain ⟨k, hk, rfl⟩ := List.mem_map.1 hpo
      obtain ⟨_, _, hx, hy⟩ := ht'.2.1 r hr'
      exact place_inside ((hg r maxKps sm).1 k (List.mem_of_mem_take hk)) hx hy
  · intro hm0 p hp
    obtain ⟨r, hr', out, ⟨sm, hsm, rfl⟩, hpo⟩ := mem_flatten_forall2 h2' hp
    obtain ⟨k, hk, rfl⟩ := List.mem_map.1 hpo
    rw [if_neg hm0] at hsm
    have := (hg r maxKps sm).2.2 _ hsm k (List.mem_of_mem_take hk)
    unfold place
    dsimp only
    rw [Int.floor_add_natCast, Int.floor_add_natCast]
    exact this

theorem twoCorners_ok : FastOk twoCorners := by
  intro r k hk
  unfold twoCorners at hk
  by_cases h0 : r.w = 0 ∨ r.h = 0
  · rw [if_pos h0] at hk
    simp at hk
  rw [if_neg h0] at hk
  have hw : 1 ≤ r.w := by omega
  have hh : (0 : ℚ) < r.h := by exact_mod_cast (show 0 < r.h by omega)
  by_cases h1 : r.w = 1
  · rw [if_pos h1] at hk
    simp only [List.mem_cons, List.not_mem_nil, or_false] at hk
    subst hk
    refine ⟨le_rfl, ?_, le_rfl, hh⟩
    rw [h1]
    norm_num
  · rw [if_neg h1] at hk
    have hw2 : (2 : ℚ) ≤ r.w := by exact_mod_cast (show 2 ≤ r.w by omega)
    simp only [List.mem_cons, List.not_mem_nil, or_false] at hk
    rcases hk with rfl | rfl
    · exact ⟨le_rfl, by dsimp only; linarith, le_rfl, hh⟩
    · exact ⟨by norm_num, by dsimp only; linarith, le_rfl, hh⟩

/-- A detector that respects the mask: the top left pixel of the region if it is set. -/
def maskedCorner : Roi → ℤ → Option (ℤ → ℤ → Bool) → List KP := fun r n sm =>
  if r.w = 0 ∨ r.h = 0 ∨ n ≤ 0 then []
  else match sm with
    | none => [⟨0, 0, 2⟩]
    | some f => if f 0 0 then [⟨0, 0, 2⟩] else []

example : GoodOk maskedCorner := by
  intro r n sm
  unfold maskedCorner
  by_cases h : r.w = 0 ∨ r.h = 0 ∨ n ≤ 0
  · simp [if_pos h]
    intro h1
    omega
  rw [if_neg h]
  have hw : (0 : ℚ) < r.w := by exact_mod_cast (show 0 < r.w by omega)
  have hh : (0 : ℚ) < r.h := by exact_mod_cast (show 0 < r.h by omega)
  have hreg : InRegion r ⟨0, 0, 2⟩ := ⟨le_rfl, hw, le_rfl, hh⟩
  cases sm with
  | none => exact ⟨by simpa using hreg, fun h1 => by simp; omega, fun f hf => by cases hf⟩
  | some f =>
    dsimp only
    by_cases hf : f 0 0 = true
    · rw [if_pos hf]
      refine ⟨by simpa using hreg, fun h1 => by simp; omega, ?_⟩
      intro g hg k hk
      cases hg
      simp only [List.mem_cons, List.not_mem_nil, or_false] at hk
      subst hk
      simpa using hf
    · rw [if_neg hf]
      exact ⟨by simp, fun h1 => by simp; omega, by simp⟩

/-- **C105.** The number of points is at most the limit per cell (at least one) times the number
of cells visited, which is the size of the image over the size of a cell, rounded up. -/
theorem C105_count {fast : Roi → List KP} {s : List ℤ → List Nat} (hs : SortIdx s)
    {W H maxKps rows cols : Nat} (hr : 0 < rows) (hc : 0 < cols) (hrH : rows ≤ H) (hcW : cols ≤ W)
    {a : List (ℚ × ℚ)} (ha : gridFast fast s W H maxKps rows cols = .ok a) :
    a.length ≤ ((W + W / cols - 1) / (W / cols)) * ((H + H / rows - 1) / (H / rows)) *
      max 1 (perCell maxKps rows cols) := by
  have hdx : 0 < W / cols := Nat.div_pos hcW hc
  have hdy : 0 < H / rows := Nat.div_pos hrH hr
  unfold gridFast at ha
  rw [gridParams_ok hr hc] at ha
  dsimp only at ha
  rw [gridCells_ok (by omega) (by omega) hdx hdy] at ha
  dsimp only at ha
  obtain ⟨outs, h1, h2⟩ := overCells_ok
    (f := fastCell fast s (perCell maxKps rows cols))
    (P := fun _ out => out.length ≤ max 1 (perCell maxKps rows cols))
    ((starts (W + 1) W (W / cols) 0).flatMap fun x =>
      (starts (H + 1) H (H / rows) 0).map fun y => cell W H (W / cols) (H / rows) x y) (by
      intro r _
      obtain ⟨o, ho, hb⟩ := sortKeypoints_best hs (fast r) 0
      refine ⟨_, by rw [fastCell, ho], ?_⟩
      rw [pushLoop_eq r _ o 0 (by omega), List.length_map, List.length_take]
      omega)
  rw [ha] at h1
  cases h1
  rw [← cells_length (W := W) (H := H) hdx hdy]
  generalize ((starts (W + 1) W (W / cols) 0).flatMap fun x =>
      (starts (H + 1) H (H / rows) 0).map fun y => cell W H (W / cols) (H / rows) x y) = cs at h2
  clear ha
  induction h2 with
  | nil => simp
  | cons h3 _ ih =>
    rw [List.flatten_cons, List.length_append, List.length_cons, Nat.succ_mul]
    omega

/-- **C105.** If the grid divides the image evenly and the number of cells divides the requested
number, no more points than requested are returned. -/
theorem C105_even {fast : Roi → List KP} {s : List ℤ → List Nat} (hs : SortIdx s)
    {n rows cols u v : Nat} (hr : 0 < rows) (hc : 0 < cols) (hu : 0 < u) (hv : 0 < v) (hn : 0 < n)
    {a : List (ℚ × ℚ)}
    (ha : gridFast fast s (u * cols) (v * rows) ((n * (rows * cols) : Nat) : ℤ) rows cols = .ok a) :
    a.length ≤ n * (rows * cols) := by
  have h := C105_count hs hr hc (Nat.le_mul_of_pos_left _ hv) (Nat.le_mul_of_pos_left _ hu) ha
  rw [Nat.mul_div_cancel _ hc, Nat.mul_div_cancel _ hr] at h
  have e1 : (u * cols + u - 1) / u = cols := by
    apply Nat.div_eq_of_lt_le
    · have : u * cols = cols * u := by ring
      omega
    · have : (cols + 1) * u = u * cols + u := by ring
      omega
  have e2 : (v * rows + v - 1) / v = rows := by
    apply Nat.div_eq_of_lt_le
    · have : v * rows = rows * v := by ring
      omega
    · have : (rows + 1) * v = v * rows + v := by ring
      omega
  have e3 : perCell (n * (rows * cols)) rows cols = n := by
    unfold perCell
    have hne : ((rows : ℚ) * cols) ≠ 0 := by positivity
    push_cast
    rw [mul_div_assoc, div_self hne, mul_one, Nat.ceil_natCast]
  rw [e1, e2, e3, Nat.max_eq_right hn] at h
  calc a.length ≤ cols * rows * n := h
    _ = n * (rows * cols) := by ring

example : gridFast twoCorners stableSort (3 * 2) (2 * 2) ((1 * (2 * 2) : Nat) : ℤ) 2 2 =
    .ok [(1, 0), (1, 2), (4, 0), (4, 2)] := by decide +kernel

/-- In general more points than requested are returned: the limit per cell is rounded up, and an
image that is not divided evenly has more cells than the grid. -/
theorem C105_limit_refuted :
    ¬ ∀ (fast : Roi → List KP) (s : List ℤ → List Nat), FastOk fast → SortIdx s →
      ∀ (W H maxKps rows cols : Nat) (a : List (ℚ × ℚ)), 0 < rows → 0 < cols → rows ≤ H →
      cols ≤ W → gridFast fast s W H maxKps rows cols = .ok a → a.length ≤ maxKps := by
  intro h
  have h2 : gridFast twoCorners stableSort 7 1 4 1 4 =
      .ok [(0, 0), (1, 0), (2, 0), (3, 0), (4, 0), (5, 0), (6, 0)] := by decide +kernel
  have := h _ _ twoCorners_ok stableSort_ok 7 1 4 1 4 _ (by omega) (by omega) (by omega)
    (by omega) h2
  simp at this

/-- Also nothing requested does not mean nothing returned. -/
theorem C105_zero_refuted :
    ¬ ∀ (fast : Roi → List KP) (s : List ℤ → List Nat), FastOk fast → SortIdx s →
      ∀ (W H : Nat) (a : List (ℚ × ℚ)),
      gridFast fast s W H 0 2 2 = .ok a → a = [] := by
  intro h
  have h2 : gridFast twoCorners stableSort 2 2 0 2 2 =
      .ok [(0, 0), (0, 1), (1, 0), (1, 1)] := by decide +kernel
  have := h _ _ twoCorners_ok stableSort_ok 2 2 _ h2
  simp at this

/-- A grid with more columns or rows than the image has pixels is never finished, whatever the
detectors find. -/
theorem C105_fine_refuted (fast : Roi → List KP) (s : List ℤ → List Nat)
    (good : Roi → ℤ → Option (ℤ → ℤ → Bool) → List KP) (m : Mask)
    {W H maxKps rows cols : Nat} (hW : 0 < W) (hH : 0 < H) (hr : 0 < rows) (hc : 0 < cols)
    (hfine : W < cols ∨ H < rows) :
    gridFast fast s W H maxKps rows cols = .error .diverge ∧
      gridGood good m W H maxKps rows cols = .error .diverge := by
  have hcell : gridCells W H ((W / cols : Nat) : ℤ) ((H / rows : Nat) : ℤ) = .error .diverge := by
    unfold gridCells
    have h0 : W / cols = 0 ∨ H / rows = 0 := by
      rcases hfine with h | h
      · exact Or.inl (Nat.div_eq_of_lt h)
      · exact Or.inr (Nat.div_eq_of_lt h)
    generalize W / cols = p at h0 ⊢
    generalize H / rows = q at h0 ⊢
    rw [if_neg (by omega), if_neg (by omega), if_neg (by omega), if_pos (by omega)]
  unfold gridFast gridGood
  rw [gridParams_ok hr hc]
  dsimp only
  rw [hcell]
  exact ⟨rfl, rfl⟩

example : gridFast twoCorners stableSort 3 3 4 2 4 = .error .diverge := by decide +kernel

/-- A grid of no rows or no columns is a division by zero. -/
theorem C105_empty_grid (fast : Roi → List KP) (s : List ℤ → List Nat)
    (good : Roi → ℤ → Option (ℤ → ℤ → Bool) → List KP) (m : Mask)
    (W H : Nat) (maxKps rows cols : ℤ) (h : rows = 0 ∨ cols = 0) :
    gridFast fast s W H maxKps rows cols = .error .divZero ∧
      gridGood good m W H maxKps rows cols = .error .divZero := by
  have hp : gridParams W H maxKps rows cols = .error .divZero := by
    unfold gridParams
    by_cases hc : cols = 0
    · rw [if_pos hc]
    · rw [if_neg hc, if_pos (by tauto)]
  unfold gridFast gridGood
  rw [hp]
  exact ⟨rfl, rfl⟩

example : gridFast twoCorners stableSort 3 3 4 0 2 = .error .divZero := by decide +kernel

/-- A mask smaller than the image is rejected with an exception. -/
theorem C105_small_mask {good : Roi → ℤ → Option (ℤ → ℤ → Bool) → List KP}
    {W H maxKps rows cols : Nat} (m : Mask) (hm0 : m.rows ≠ 0) (hm : m.cols < W ∨ m.rows < H)
    (hr : 0 < rows) (hc : 0 < cols) (hrH : rows ≤ H) (hcW : cols ≤ W) :
    gridGood good m W H maxKps rows cols = .error .exn := by
  have hdx : 0 < W / cols := Nat.div_pos hcW hc
  have hdy : 0 < H / rows := Nat.div_pos hrH hr
  unfold gridGood
  rw [gridParams_ok hr hc]
  dsimp only
  rw [gridCells_ok (by omega) (by omega) hdx hdy]
  dsimp only
  have ht := tiles_cells (W := W) (H := H) hdx hdy
  obtain ⟨r, ⟨hrm, c1, c2, c3, c4⟩, _⟩ := ht.2.2 (W - 1) (H - 1) (by omega) (by omega)
  have hbad : goodCell good maxKps m (perCell maxKps rows cols) r = .error .exn := by
    unfold goodCell subMask
    rw [if_neg hm0, if_neg (by omega)]
  have hall : ∀ r', goodCell good maxKps m (perCell maxKps rows cols) r' = .error .exn ∨
      ∃ o, goodCell good maxKps m (perCell maxKps rows cols) r' = .ok o := by
    intro r'
    unfold goodCell subMask
    rw [if_neg hm0]
    by_cases h : r'.x + r'.w ≤ m.cols ∧ r'.y + r'.h ≤ m.rows
    · rw [if_pos h]
      exact Or.inr ⟨_, rfl⟩
    · rw [if_neg h]
      exact Or.inl rfl
  generalize ((starts (W + 1) W (W / cols) 0).flatMap fun x =>
      (starts (H + 1) H (H / rows) 0).map fun y => cell W H (W / cols) (H / rows) x y) = cs at hrm
  clear ht
  induction cs with
  | nil => simp at hrm
  | cons a as ih =>
    rw [overCells]
    rcases hall a with h | ⟨o, h⟩
    · rw [h]
    · rw [h]
      rcases List.mem_cons.1 hrm with rfl | hrm
      · rw [hbad] at h
        cases h
      · rw [ih hrm]

example : gridGood maskedCorner ⟨3, 3, fun _ _ => true⟩ 4 4 4 2 2 = .error .exn := by
  decide +kernel

/-- **C105.** `draw_grid_features` draws the inner borders of the cells `grid_fast` uses: a
vertical line at `x` and a horizontal one at `y` exactly where a cell begins, the image border
excepted. -/
theorem C105_lines {W H rows cols : Nat} (hr : 0 < rows) (hc : 0 < cols) (hrH : rows ≤ H)
    (hcW : cols ≤ W) :
    ∃ vs hs cs, gridLines W H rows cols = .ok (vs, hs) ∧
      gridCells W H ((W / cols : Nat) : ℤ) ((H / rows : Nat) : ℤ) = .ok cs ∧
      (∀ x, x ∈ vs ↔ 0 < x ∧ ∃ r ∈ cs, r.x = x) ∧ (∀ y, y ∈ hs ↔ 0 < y ∧ ∃ r ∈ cs, r.y = y) := by
  have hdx : 0 < W / cols := Nat.div_pos hcW hc
  have hdy : 0 < H / rows := Nat.div_pos hrH hr
  refine ⟨starts (W + 1) W (W / cols) (W / cols), starts (H + 1) H (H / rows) (H / rows), _, ?_,
    gridCells_ok (by omega) (by omega) hdx hdy, ?_, ?_⟩
  · unfold gridLines
    rw [if_neg (by omega), if_neg (by omega)]
    dsimp only
    have e1 : (W : ℤ).tdiv cols = ((W / cols : Nat) : ℤ) := rfl
    have e2 : (H : ℤ).tdiv rows = ((H / rows : Nat) : ℤ) := rfl
    rw [e1, e2, if_neg (by omega)]
    rfl
  · intro x
    rw [mem_lines hdx]
    constructor
    · rintro ⟨h1, h2, h3⟩
      refine ⟨h1, cell W H (W / cols) (H / rows) x 0, ?_, rfl⟩
      exact List.mem_flatMap.2 ⟨x, (mem_starts hdx x).2 ⟨h2, h3⟩, List.mem_map.2
        ⟨0, (mem_starts hdy 0).2 ⟨by omega, dvd_zero _⟩, rfl⟩⟩
    · rintro ⟨h1, r, hr', rfl⟩
      obtain ⟨x, hx, hr'⟩ := List.mem_flatMap.1 hr'
      obtain ⟨y, _, rfl⟩ := List.mem_map.1 hr'
      exact ⟨h1, (mem_starts hdx x).1 hx⟩
  · intro y
    rw [mem_lines hdy]
    constructor
    · rintro ⟨h1, h2, h3⟩
      refine ⟨h1, cell W H (W / cols) (H / rows) 0 y, ?_, rfl⟩
      exact List.mem_flatMap.2 ⟨0, (mem_starts hdx 0).2 ⟨by omega, dvd_zero _⟩, List.mem_map.2
        ⟨y, (mem_starts hdy y).2 ⟨h2, h3⟩, rfl⟩⟩
    · rintro ⟨h1, r, hr', rfl⟩
      obtain ⟨x, _, hr'⟩ := List.mem_flatMap.1 hr'
      obtain ⟨y, hy, rfl⟩ := List.mem_map.1 hr'
      exact ⟨h1, (mem_starts hdy y).1 hy⟩

example : gridLines 7 4 2 2 = .ok ([3, 6], [2]) := by decide +kernel

/-! ### Matrices -/

/-- **C106.** An Eigen matrix converted to OpenCV and back is the same matrix; an OpenCV matrix of
doubles converted to Eigen and back has the same size and elements. -/
theorem C106_roundtrip {α : Type} (m : EMat α) (c : CvMat α) (hc : c.isF64 = true)
    (hc1 : c.channels = 1) :
    toEigen (toCv m) = .ok m ∧
      ∃ e, toEigen c = .ok e ∧ e.rows = c.rows ∧ e.cols = c.cols ∧ (toCv e).rows = c.rows ∧
        (toCv e).cols = c.cols ∧ ∀ i j, i < c.rows → j < c.cols → (toCv e).el i j = c.el i j := by
  constructor
  · unfold toEigen toCv
    simp
  · refine ⟨⟨c.rows, c.cols, c.el⟩, ?_, rfl, rfl, rfl, rfl, fun _ _ _ _ => rfl⟩
    unfold toEigen
    split_ifs with h1 h2
    · rfl
    · rfl
    · exact absurd ⟨hc, hc1⟩ h2

example : (⟨2, 2, 2, 1, true, fun i j => (i + j : ℕ)⟩ : CvMat ℕ).isF64 = true := rfl

/-- A non-empty OpenCV matrix of another element type (an 8-bit image, say) is read out of
bounds. -/
theorem C106_type_refuted {α : Type} (c : CvMat α) (h : c.isF64 = false) (hr : 0 < c.rows)
    (hc : 0 < c.cols) : toEigen c = .error .oob := by
  unfold toEigen
  rw [if_neg (by omega), if_neg (by simp [h])]

example : toEigen (⟨2, 2, 2, 1, false, fun _ _ => 0⟩ : CvMat ℕ) = .error .oob :=
  C106_type_refuted _ rfl (by decide) (by decide)

/-- **C106.** Two two-dimensional single-channel matrices of the same element type are reported
equal exactly if both are empty, or they have the same size and no two elements at the same place
differ. -/
theorem C106_equal {α : Type} (ne : α → α → Bool) (a b : CvMat α) (hd : a.dims = 2 ∧ b.dims = 2)
    (hch : a.channels = 1 ∧ b.channels = 1) (ht : a.isF64 = b.isF64) :
    ∃ r, isEqual ne a b = .ok r ∧
      (r = true ↔ ((a.rows = 0 ∨ a.cols = 0) ∧ (b.rows = 0 ∨ b.cols = 0)) ∨
        (a.rows = b.rows ∧ a.cols = b.cols ∧
          ∀ i j, i < a.rows → j < a.cols → ne (a.el i j) (b.el i j) = false)) := by
  unfold isEqual CvMat.empty
  by_cases h0 : (a.rows = 0 ∨ a.cols = 0) ∧ (b.rows = 0 ∨ b.cols = 0)
  · refine ⟨true, ?_, by simp [h0]⟩
    rw [if_pos (by simpa using h0)]
  rw [if_neg (by simpa using h0)]
  by_cases h1 : a.cols = b.cols
  swap
  · exact ⟨false, by rw [if_pos h1], by simp [h0, h1]⟩
  rw [if_neg (by simpa using h1)]
  by_cases h2 : a.rows = b.rows
  swap
  · exact ⟨false, by rw [if_pos h2], by simp [h0, h2]⟩
  rw [if_neg (by simpa using h2), if_neg (by omega), if_neg (by simp [hch, ht])]
  refine ⟨_, rfl, ?_⟩
  simp only [Bool.not_eq_true', List.any_eq_false, List.mem_range, Bool.not_eq_true]
  constructor
  · intro h
    exact Or.inr ⟨h2, h1, fun i j hi hj => h i hi j hj⟩
  · rintro (h | ⟨_, _, h⟩)
    · exact absurd h h0
    · exact fun i hi j hj => h i j hi hj

example : isEqual (fun a b => a != b) (⟨1, 2, 2, 1, true, fun i j => i + j⟩ : CvMat ℕ)
    ⟨1, 2, 2, 1, true, fun i j => i + 2 * j⟩ = .ok false := by decide +kernel

/-- Two colour images of the same size are not compared at all: an exception. -/
theorem C106_colour_refuted {α : Type} (ne : α → α → Bool) (a b : CvMat α) (hr : a.rows = b.rows)
    (hc : a.cols = b.cols) (hd : a.dims = b.dims) (hp : 0 < a.rows ∧ 0 < a.cols)
    (hch : a.channels = 3) : isEqual ne a b = .error .exn := by
  unfold isEqual CvMat.empty
  rw [if_neg (by simp; omega), if_neg (by simp [hc]), if_neg (by simp [hr]),
    if_neg (by simp [hd]), if_pos (by simp [hch])]

example : isEqual (fun a b => a != b) (⟨1, 2, 2, 3, false, fun _ _ => 0⟩ : CvMat ℕ)
    ⟨1, 2, 2, 3, false, fun _ _ => 0⟩ = .error .exn := by decide +kernel

/-- **C106.** A conversion to grey gives one channel from one or three, one to colour three from
one or three; both are idempotent. -/
theorem C106_channels (c : Nat) :
    rgb2grayChannels 1 = 1 ∧ rgb2grayChannels 3 = 1 ∧ gray2rgbChannels 1 = 3 ∧
      gray2rgbChannels 3 = 3 ∧ rgb2grayChannels (rgb2grayChannels c) = rgb2grayChannels c ∧
      gray2rgbChannels (gray2rgbChannels c) = gray2rgbChannels c := by
  refine ⟨rfl, rfl, rfl, rfl, ?_, ?_⟩
  · unfold rgb2grayChannels
    split_ifs <;> rfl
  · unfold gray2rgbChannels
    split_ifs <;> rfl

end Yac.Cv
