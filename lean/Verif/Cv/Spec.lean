import Verif.Cv.Model
import Mathlib.Data.List.Basic

/-! What is assumed of OpenCV and what is claimed of the feature grids. -/

namespace Yac.Cv

/-- `cv::sortIdx` with `SORT_DESCENDING`: a permutation of the indices along which the values do
not increase. -/
def SortIdx (s : List ℤ → List Nat) : Prop :=
  ∀ l, (s l).Perm (List.range l.length) ∧ ((s l).map fun i => l.getD i 0).Pairwise (· ≥ ·)

/-- A point of a region, in coordinates of the region. -/
def InRegion (r : Roi) (k : KP) : Prop := 0 ≤ k.x ∧ k.x < r.w ∧ 0 ≤ k.y ∧ k.y < r.h

/-- A detector finds points of the region it is given. -/
def FastOk (fast : Roi → List KP) : Prop := ∀ r, ∀ k ∈ fast r, InRegion r k

/-- `cv::goodFeaturesToTrack` finds points of the region, at most as many as asked for, on pixels
of the mask if there is one. -/
def GoodOk (good : Roi → ℤ → Option (ℤ → ℤ → Bool) → List KP) : Prop :=
  ∀ r n sm, (∀ k ∈ good r n sm, InRegion r k) ∧ (0 < n → ((good r n sm).length : ℤ) ≤ n) ∧
    ∀ f, sm = some f → ∀ k ∈ good r n sm, f ⌊k.x⌋ ⌊k.y⌋ = true

/-- The pixel `(u, v)` belongs to the region. -/
def Covers (r : Roi) (u v : Nat) : Prop := r.x ≤ u ∧ u < r.x + r.w ∧ r.y ≤ v ∧ v < r.y + r.h

/-- The regions are non-empty parts of the `W × H` image and every pixel is in exactly one. -/
def Tiles (W H : Nat) (cs : List Roi) : Prop :=
  cs.Nodup ∧ (∀ r ∈ cs, 0 < r.w ∧ 0 < r.h ∧ r.x + r.w ≤ W ∧ r.y + r.h ≤ H) ∧
    ∀ u v, u < W → v < H → ∃! r, r ∈ cs ∧ Covers r u v

/-- `chosen` are `n` of the keypoints `all` (or all of them if there are fewer), none of the others
has a larger (truncated) response. -/
def Best (n : Nat) (all chosen : List KP) : Prop :=
  chosen.length = min n all.length ∧ chosen.Pairwise (fun a b => trunc b.resp ≤ trunc a.resp) ∧
    ∃ rest, (chosen ++ rest).Perm all ∧
      ∀ a ∈ chosen, ∀ b ∈ rest, trunc b.resp ≤ trunc a.resp

/-- The position in the image of a keypoint of a region. -/
def place (r : Roi) (k : KP) : ℚ × ℚ := (k.x + r.x, k.y + r.y)

/-- The limit per cell: the requested number divided by the number of cells of the grid, rounded
up. -/
def perCell (maxKps rows cols : Nat) : Nat := ⌈(maxKps : ℚ) / ((rows : ℚ) * cols)⌉₊

end Yac.Cv
