import Verif.Info.NbvProps

/-!
# C96: concrete calibrations, and the cases in which the score is wrong
-/

namespace Yac.Info
open Matrix Yac.Marg Yac.Solver Finset

set_option linter.unusedSectionVars false

variable {P : Type} [DecidableEq P]

/-! ### Integer Jacobians -/

/-- A residual with integer Jacobians. -/
structure ZRes (P : Type) where
  size : Nat
  blocks : List (P × (Nat → Nat → ℤ))

/-- As a residual. -/
def real (f : ZRes P) : Res ℝ P :=
  ⟨f.size, fun _ => 0, f.blocks.map (fun b => (b.1, fun k i => ((b.2 k i : ℤ) : ℝ)))⟩

theorem rowG_real (info : P → ParamInfo) (c : P → Nat) (bs : List (P × (Nat → Nat → ℤ))) (k a : Nat) :
    rowG info c (bs.map (fun b => (b.1, fun k i => ((b.2 k i : ℤ) : ℝ)))) k a =
      ((rowG info c bs k a : ℤ) : ℝ) := by
  induction bs with
  | nil => simp [rowG]
  | cons b bs ih =>
    rw [List.map_cons, rowG, rowG, ih, Int.cast_add]
    congr 1
    simp only [ent]
    split_ifs <;> simp

/-- `gram` on integers. -/
def zgram (info : P → ParamInfo) (c : P → Nat) (fs : List (ZRes P)) (a b : Nat) : ℤ :=
  (fs.map (fun f => ((List.range f.size).map (fun k =>
    rowG info c f.blocks k a * rowG info c f.blocks k b)).sum)).sum

theorem sum_range_list (n : Nat) (g : Nat → ℤ) :
    ((((List.range n).map g).sum : ℤ) : ℝ) = ∑ k ∈ range n, ((g k : ℤ) : ℝ) := by
  induction n with
  | zero => simp
  | succ n ih => rw [List.range_succ, List.map_append, List.sum_append, Int.cast_add, ih,
      Finset.sum_range_succ]; simp

theorem gram_real (info : P → ParamInfo) (c : P → Nat) (fs : List (ZRes P)) (a b : Nat) :
    gram info c (fs.map real) a b = ((zgram info c fs a b : ℤ) : ℝ) := by
  rw [gram_eq]
  unfold zgram
  induction fs with
  | nil => simp
  | cons f fs ih =>
    simp only [List.map_cons, List.sum_cons, Int.cast_add] at ih ⊢
    rw [ih]
    congr 1
    rw [sum_range_list]
    apply sum_congr rfl
    intro k _
    simp only [real, rowG_real, Int.cast_mul]

/-- `infoEntry` on integers. -/
def zinfo (fs : List (ZRes P)) (p : P) (i : Nat) (q : P) (j : Nat) : ℤ :=
  (fs.map (fun f => ((List.range f.size).map (fun k =>
    (f.blocks.map (fun b => if b.1 = p then b.2 k i else 0)).sum *
    (f.blocks.map (fun b => if b.1 = q then b.2 k j else 0)).sum)).sum)).sum

theorem deriv_real (f : ZRes P) (p : P) (k i : Nat) :
    Solver.deriv (real f) p k i =
      (((f.blocks.map (fun b => if b.1 = p then b.2 k i else 0)).sum : ℤ) : ℝ) := by
  unfold Solver.deriv real
  simp only [List.map_map]
  induction f.blocks with
  | nil => simp
  | cons b bs ih =>
    simp only [List.map_cons, List.sum_cons, Int.cast_add, ih, Function.comp]
    congr 1
    split_ifs <;> simp

theorem info_real (fs : List (ZRes P)) (p : P) (i : Nat) (q : P) (j : Nat) :
    infoEntry (fs.map real) p i q j = ((zinfo fs p i q j : ℤ) : ℝ) := by
  unfold infoEntry zinfo
  induction fs with
  | nil => simp
  | cons f fs ih =>
    simp only [List.map_cons, List.sum_cons, Int.cast_add] at ih ⊢
    rw [ih]
    congr 1
    rw [sum_range_list]
    apply sum_congr rfl
    intro k _
    rw [deriv_real, deriv_real, Int.cast_mul]

/-! ### Diagonal matrices -/

/-- The score if the whole matrix is diagonal. -/
theorem logDet_diag (eig : EigSolver) {svd : Svd} (hs : IsSvd svd) (H : Mat ℝ) (r size : Nat)
    (d : Nat → ℝ) (hr : r ≤ size)
    (hH : ∀ a < size, ∀ b < size, H a b = if a = b then d a else 0)
    (hd : ∏ i ∈ range r, d i ≠ 0) :
    logDetCovar eig svd H r size = .ok (- Real.logb 2 (∏ i ∈ range r, d i)) := by
  have h1 : schurInfo eig H r (size - r) = diagonal (fun i : Fin r => d i) := by
    have hz : block H 0 r r (size - r) = 0 := by
      ext i j
      have hi : (i : Nat) < r := i.2
      have hj : (j : Nat) < size - r := j.2
      rw [block, hH _ (by omega) _ (by omega), if_neg (by omega)]
      rfl
    unfold schurInfo
    rw [hz, Matrix.zero_mul, Matrix.zero_mul, sub_zero]
    ext i j
    have hi : (i : Nat) < r := i.2
    have hj : (j : Nat) < r := j.2
    rw [block, hH _ (by omega) _ (by omega)]
    by_cases h : i = j
    · subst h; simp
    · rw [Matrix.diagonal_apply_ne _ h, if_neg (by
        intro e; apply h; apply Fin.ext; omega)]
  have hdet : (diagonal (fun i : Fin r => d i)).det = ∏ i ∈ range r, d i := by
    rw [Matrix.det_diagonal, Finset.prod_range]
  obtain ⟨s1, s2⟩ := svd_log hs (diagonal (fun i : Fin r => d i))
  rw [hdet] at s1 s2
  unfold logDetCovar
  simp only
  rw [h1, if_neg (fun e => hd (s1.mp e)), s2 hd, Real.logb]
  congr 1
  ring

/-! ### The first view -/

/-- **C96 refuted, the first view.**  Without any view in the calibration every candidate with a
parameter that is not fixed reads the last element of an empty vector. -/
theorem C96_first_refuted (eig : EigSolver) (svd : Svd) (info : P → ParamInfo) (cams exts : List P)
    (views : Nat) (new : List (Res ℝ P)) (p : P) (hp : Optimised info new p) :
    ∃ E, create info cams exts views [] = .ok E ∧ eval eig svd info E new = .error .oob := by
  refine ⟨_, rfl, ?_⟩
  unfold eval
  rw [if_pos]
  obtain ⟨hf, f, hfm, hb⟩ := hp
  obtain ⟨b, hbm, rfl⟩ := List.mem_map.mp hb
  rw [← Bool.not_eq_true]
  intro h
  unfold nbvFits at h
  simp only [List.all_eq_true, Bool.or_eq_true] at h
  have := h f hfm b hbm
  rw [hf] at this
  simp [nbvCol, nbvOrder, track, assign] at this

/-! ### A fixed camera -/

/-- `n` rows of `s * I` starting at row `o`. -/
def eye (s : ℤ) (o n : Nat) : Nat → Nat → ℤ := fun k i => if k = o + i ∧ i < n then s else 0

/-- 0: a camera that is fixed, 1 and 2: poses. -/
def fixInfo : Fin 3 → ParamInfo := ![⟨true, .camera, 8⟩, ⟨false, .pose, 6⟩, ⟨false, .pose, 6⟩]

def fixOld : List (ZRes (Fin 3)) := [⟨8, [(1, eye 2 0 6), (0, eye 1 0 8)]⟩]
def fixNew : List (ZRes (Fin 3)) := [⟨8, [(2, eye 2 0 6), (0, eye 1 0 8)]⟩]

theorem fix_made (eig : EigSolver) {svd : Svd} (hs : IsSvd svd) :
    ∃ E, create fixInfo [0] [] 1 (fixOld.map real) = .ok E ∧
      eval eig svd fixInfo E (fixNew.map real) = .ok (-16) := by
  have hc : create fixInfo [0] [] 1 (fixOld.map real) =
      .ok ⟨[(1, 0)], [1], 8, 20, gram fixInfo (Solver.col [((1 : Fin 3), 0)]) (fixOld.map real)⟩ := by
    unfold create
    simp only
    rw [if_neg]
    · rfl
    · simp [covFits, fixOld, real, fixInfo, nbvOrder, track, trackStep, assign, Solver.col, remainSize,
        totalSize]
  refine ⟨_, hc, ?_⟩
  unfold eval
  rw [if_neg]
  · simp only
    have e := logDet_diag eig hs (fun a b => gram fixInfo (Solver.col [((1 : Fin 3), 0)]) (fixOld.map real) a b +
      gram fixInfo (fun p => (nbvCol ⟨[(1, 0)], [1], 8, 20,
        gram fixInfo (Solver.col [((1 : Fin 3), 0)]) (fixOld.map real)⟩ p).getD 0) (fixNew.map real) a b)
      8 20 (fun a => if a < 12 then 4 else 0) (by norm_num) ?_ ?_
    · rw [e]
      congr 1
      have : ∏ i ∈ range 8, (if i < 12 then (4 : ℝ) else 0) = 2 ^ 16 := by
        simp [Finset.prod_range_succ]; norm_num
      rw [this, Real.logb_pow]
      simp
    · have hcol : ∀ p, (fun p => (nbvCol ⟨[(1, 0)], [1], 8, 20,
        gram fixInfo (Solver.col [((1 : Fin 3), 0)]) (fixOld.map real)⟩ p).getD 0) p =
        (fun p => if p = 1 then 0 else 6 : Fin 3 → Nat) p := by
        intro p; fin_cases p <;> simp [nbvCol, Solver.col]
      intro a ha b hb
      rw [funext hcol, gram_real, gram_real]
      have : ∀ a < 20, ∀ b < 20, zgram fixInfo (Solver.col [((1 : Fin 3), 0)]) fixOld a b +
        zgram fixInfo (fun p => if p = 1 then 0 else 6 : Fin 3 → Nat) fixNew a b =
        if a = b then (if a < 12 then 4 else 0) else 0 := by decide +kernel
      have h := this a ha b hb
      have h' := congrArg (Int.cast : ℤ → ℝ) h
      push_cast at h'
      exact h'
    · simp [Finset.prod_range_succ]
  · simp [nbvFits, fixNew, real, fixInfo, nbvCol, Solver.col]

/-- **C96 refuted, a fixed camera.**  The columns of the candidate's predecessors move into the
place of the fixed camera: with nothing to calibrate the score is -16 although the determinant of
the (empty) covariance is 1. -/
theorem C96_fixed_refuted :
    ∃ (info : Fin 3 → ParamInfo) (fs new : List (Res ℝ (Fin 3))),
      (∀ p, Optimised info (fs ++ new) p ↔ p = 1 ∨ p = 2) ∧
      (∀ lam, InfoEigenvalue info (fs ++ new) {1, 2} lam → 1e-8 < lam) ∧
      Real.logb 2 (calibCovar info (fs ++ new) ∅ {1, 2}).det = 0 ∧
      ∀ eig svd, IsSvd svd → ∃ E, create info [0] [] 1 fs = .ok E ∧
        eval eig svd info E new = .ok (-16) := by
  refine ⟨fixInfo, fixOld.map real, fixNew.map real, ?_, ?_, ?_, fun eig svd hs => fix_made eig hs⟩
  · intro p
    unfold Optimised
    fin_cases p <;> simp [fixInfo, fixOld, fixNew, real]
  · intro lam ⟨v, ⟨p, hp, i, hi, hne⟩, h⟩
    have he := h p hp i hi
    have hz : ∀ p ∈ ({1, 2} : Finset (Fin 3)), ∀ q ∈ ({1, 2} : Finset (Fin 3)), ∀ i < 6, ∀ j < 6,
      zinfo (fixOld ++ fixNew) p i q j = if p = q ∧ i = j then 4 else 0 := by decide +kernel
    have hs : ∀ p ∈ ({1, 2} : Finset (Fin 3)), (fixInfo p).size = 6 := by decide
    rw [hs p hp] at hi
    have e : applyInfo fixInfo (fixOld.map real ++ fixNew.map real) {1, 2} v p i = 4 * v p i := by
      unfold applyInfo
      rw [← List.map_append, Finset.sum_eq_single_of_mem p hp, hs p hp,
        Finset.sum_eq_single_of_mem i (Finset.mem_range.mpr hi), info_real, hz p hp p hp i hi i hi]
      · simp
      · intro j hj hji
        rw [info_real, hz p hp p hp i hi j (Finset.mem_range.mp hj), if_neg (fun x => hji x.2.symm)]
        simp
      · intro q hq hqp
        apply Finset.sum_eq_zero
        intro j hj
        rw [hs q hq] at hj
        rw [info_real, hz p hp q hq i hi j (Finset.mem_range.mp hj), if_neg (fun x => hqp x.1.symm)]
        simp
    rw [e] at he
    have := mul_right_cancel₀ hne he
    rw [← this]; norm_num
  · have : IsEmpty (Comp fixInfo ∅) := ⟨fun x => absurd x.1.2 (Finset.notMem_empty _)⟩
    rw [Matrix.det_isEmpty, Real.logb_one]

/-! ### A camera not seen before -/

/-- 0 and 1: cameras, 2: extrinsics of the second, 3 and 4: poses. -/
def unInfo : Fin 5 → ParamInfo :=
  ![⟨false, .camera, 8⟩, ⟨false, .camera, 8⟩, ⟨false, .extrinsics, 6⟩, ⟨false, .pose, 6⟩,
    ⟨false, .pose, 6⟩]

def unOld : List (ZRes (Fin 5)) := [⟨14, [(3, eye 1 8 6), (0, eye 1 0 8)]⟩]
def unNew : List (ZRes (Fin 5)) := [⟨20, [(4, eye 1 14 6), (2, eye 1 8 6), (1, eye 1 0 8)]⟩]

theorem un_made (eig : EigSolver) {svd : Svd} (hs : IsSvd svd) :
    ∃ E, create unInfo [0, 1] [2] 1 (unOld.map real) = .ok E ∧
      eval eig svd unInfo E (unNew.map real) = .ok (-Real.logb 2 729) := by
  have hc : create unInfo [0, 1] [2] 1 (unOld.map real) =
      .ok ⟨[(0, 0), (3, 8)], [3], 22, 34, gram unInfo (Solver.col [((0 : Fin 5), 0), (3, 8)]) (unOld.map real)⟩ := by
    unfold create
    simp only
    rw [if_neg]
    · rfl
    · simp [covFits, unOld, real, unInfo, nbvOrder, track, trackStep, assign, Solver.col, remainSize,
        totalSize]
  refine ⟨_, hc, ?_⟩
  unfold eval
  rw [if_neg]
  · simp only
    have e := logDet_diag eig hs (fun a b => gram unInfo (Solver.col [((0 : Fin 5), 0), (3, 8)]) (unOld.map real) a b +
      gram unInfo (fun p => (nbvCol ⟨[(0, 0), (3, 8)], [3], 22, 34,
        gram unInfo (Solver.col [((0 : Fin 5), 0), (3, 8)]) (unOld.map real)⟩ p).getD 0) (unNew.map real) a b)
      22 34 (fun a => if a < 14 then 1 else if a < 20 then 3 else if a < 22 then 1 else 0)
      (by norm_num) ?_ ?_
    · rw [e]
      congr 2
      simp [Finset.prod_range_succ]; norm_num
    · have hcol : ∀ p, (fun p => (nbvCol ⟨[(0, 0), (3, 8)], [3], 22, 34,
        gram unInfo (Solver.col [((0 : Fin 5), 0), (3, 8)]) (unOld.map real)⟩ p).getD 0) p =
        (![0, 14, 14, 8, 14] : Fin 5 → Nat) p := by
        intro p; fin_cases p <;> simp [nbvCol, Solver.col]
      intro a ha b hb
      rw [funext hcol, gram_real, gram_real]
      have : ∀ a < 34, ∀ b < 34, zgram unInfo (Solver.col [((0 : Fin 5), 0), (3, 8)]) unOld a b +
        zgram unInfo (![0, 14, 14, 8, 14] : Fin 5 → Nat) unNew a b =
        if a = b then (if a < 14 then 1 else if a < 20 then 3 else if a < 22 then 1 else 0) else 0 := by
        decide +kernel
      have h := this a ha b hb
      have h' := congrArg (Int.cast : ℤ → ℝ) h
      push_cast at h'
      exact h'
    · simp [Finset.prod_range_succ]
  · simp [nbvFits, unNew, real, unInfo, nbvCol, Solver.col]

/-- **C96 refuted, a camera not seen before.**  The parameters of a camera that only the candidate
sees share the columns of the candidate's pose: the score is `-log₂ 729` although the information
matrix is the identity, and the determinant of the covariance 1. -/
theorem C96_unseen_refuted :
    ∃ (info : Fin 5 → ParamInfo) (fs new : List (Res ℝ (Fin 5))),
      (∀ p, Optimised info (fs ++ new) p) ∧
      infoMatrix info (fs ++ new) {0, 1, 2} {3, 4} = 1 ∧
      Real.logb 2 (calibCovar info (fs ++ new) {0, 1, 2} {3, 4}).det = 0 ∧
      ∀ eig svd, IsSvd svd → ∃ E, create info [0, 1] [2] 1 fs = .ok E ∧
        eval eig svd info E new = .ok (-Real.logb 2 729) := by
  have hz : ∀ p q : Fin 5, ∀ i < (unInfo p).size, ∀ j < (unInfo q).size,
      zinfo (unOld ++ unNew) p i q j = if p = q ∧ i = j then 1 else 0 := by decide +kernel
  have h1 : infoMatrix unInfo (unOld.map real ++ unNew.map real) {0, 1, 2} {3, 4} = 1 := by
    unfold infoMatrix
    rw [← fromBlocks_one]
    have hin : ∀ S T : Finset (Fin 5), ∀ (a : Comp unInfo S) (b : Comp unInfo T),
        infoBlock unInfo (unOld.map real ++ unNew.map real) S T a b =
          if (a.1 : Fin 5) = b.1 ∧ (a.2 : Nat) = b.2 then 1 else 0 := by
      intro S T a b
      rw [infoBlock, ← List.map_append, info_real, hz _ _ _ a.2.2 _ b.2.2]
      split_ifs <;> simp
    have hone : ∀ S : Finset (Fin 5),
        infoBlock unInfo (unOld.map real ++ unNew.map real) S S = 1 := by
      intro S
      ext a b
      rw [hin]
      by_cases hab : a = b
      · subst hab; simp
      · rw [Matrix.one_apply_ne hab, if_neg]
        rintro ⟨x, y⟩
        apply hab
        obtain ⟨⟨a1, ha⟩, a2⟩ := a
        obtain ⟨⟨b1, hb⟩, b2⟩ := b
        simp only at x
        subst x
        have : a2 = b2 := Fin.ext y
        rw [this]
    have hzero : ∀ S T : Finset (Fin 5), Disjoint S T →
        infoBlock unInfo (unOld.map real ++ unNew.map real) S T = 0 := by
      intro S T hd
      ext a b
      rw [hin, if_neg]
      · rfl
      · rintro ⟨x, _⟩
        exact Finset.disjoint_left.mp hd a.1.2 (x ▸ b.1.2)
    rw [hone, hone, hzero _ _ (by decide), hzero _ _ (by decide)]
  refine ⟨unInfo, unOld.map real, unNew.map real, ?_, h1, ?_, fun eig svd hs => un_made eig hs⟩
  · intro p
    unfold Optimised
    fin_cases p <;> simp [unInfo, unOld, unNew, real]
  · unfold calibCovar
    rw [h1, inv_one, ← fromBlocks_one, toBlocks_fromBlocks₁₁, det_one, Real.logb_one]

/-! ### An ordinary calibration -/

/-- 0: a camera, 1 and 2: poses. -/
def okInfo : Fin 3 → ParamInfo := ![⟨false, .camera, 8⟩, ⟨false, .pose, 6⟩, ⟨false, .pose, 6⟩]

/-- The candidate's residuals depend on the camera and the pose in the same rows. -/
def okOld : List (ZRes (Fin 3)) := [⟨14, [(1, eye 1 8 6), (0, eye 2 0 8)]⟩]
def okNew : List (ZRes (Fin 3)) := [⟨8, [(2, eye 3 2 6), (0, eye 1 0 8)]⟩]

/-- The hypotheses of `C96_score_partial` are met by a calibration of one camera whose candidate
view couples camera and pose. -/
example : Scene okInfo [0] [] 1 (okOld.map real) (okNew.map real) 2 {0} {1, 2} ∧
    (∀ lam, InfoEigenvalue okInfo (okOld.map real ++ okNew.map real) {1, 2} lam → 1e-8 < lam) ∧
    infoEntry (okOld.map real ++ okNew.map real) 0 2 2 0 = 3 := by
  have hopt : ∀ p, Optimised okInfo (okOld.map real ++ okNew.map real) p := by
    intro p; unfold Optimised
    fin_cases p <;> simp [okInfo, okOld, okNew, real]
  have hold : ∀ p, Optimised okInfo (okOld.map real) p ↔ p = 0 ∨ p = 1 := by
    intro p; unfold Optimised
    fin_cases p <;> simp [okInfo, okOld, real]
  have hnew : ∀ p, Optimised okInfo (okNew.map real) p ↔ p = 0 ∨ p = 2 := by
    intro p; unfold Optimised
    fin_cases p <;> simp [okInfo, okNew, real]
  refine ⟨⟨by simp, by simp, by simp [okInfo], by simp, by simp [okInfo], ?_, by simp, ?_, ?_, ?_, ?_,
    ⟨1, (hold 1).mpr (Or.inr rfl), rfl⟩, ?_, ?_, ?_⟩, ?_, ?_⟩
  · intro p hp
    rw [List.mem_singleton] at hp
    subst hp
    simp [okOld, real]
  · intro p _; fin_cases p <;> simp [okInfo]
  · exact ⟨rfl, rfl, rfl⟩
  · simp [okOld, real]
  · intro p hp hk
    rcases (hnew p).mp hp with rfl | rfl
    · simp [okInfo] at hk
    · rfl
  · intro S hS
    have : S ⊆ {1} := by
      intro p hp
      obtain ⟨h1, h2⟩ := hS p hp
      rcases (hold p).mp h1 with rfl | rfl
      · simp [okInfo] at h2
      · simp
    exact Finset.card_le_card this
  · intro p; fin_cases p <;> simp [okInfo]
  · intro p
    have := hopt p
    constructor
    · intro hp
      refine ⟨this, ?_⟩
      fin_cases p <;> simp_all [okInfo]
    · rintro ⟨_, hk⟩
      fin_cases p <;> simp_all [okInfo]
  · intro lam ⟨v, ⟨p, hp, i, hi, hne⟩, h⟩
    have he := h p hp i hi
    have hz : ∀ p ∈ ({1, 2} : Finset (Fin 3)), ∀ q ∈ ({1, 2} : Finset (Fin 3)), ∀ i < 6, ∀ j < 6,
      zinfo (okOld ++ okNew) p i q j = if p = q ∧ i = j then (if p = 1 then 1 else 9) else 0 := by
      decide +kernel
    have hs : ∀ p ∈ ({1, 2} : Finset (Fin 3)), (okInfo p).size = 6 := by decide
    rw [hs p hp] at hi
    have e : applyInfo okInfo (okOld.map real ++ okNew.map real) {1, 2} v p i =
        (if p = 1 then 1 else 9) * v p i := by
      unfold applyInfo
      rw [← List.map_append, Finset.sum_eq_single_of_mem p hp, hs p hp,
        Finset.sum_eq_single_of_mem i (Finset.mem_range.mpr hi), info_real, hz p hp p hp i hi i hi]
      · simp
      · intro j hj hji
        rw [info_real, hz p hp p hp i hi j (Finset.mem_range.mp hj), if_neg (fun x => hji x.2.symm)]
        simp
      · intro q hq hqp
        apply Finset.sum_eq_zero
        intro j hj
        rw [hs q hq] at hj
        rw [info_real, hz p hp q hq i hi j (Finset.mem_range.mp hj), if_neg (fun x => hqp x.1.symm)]
        simp
    rw [e] at he
    have := mul_right_cancel₀ hne he
    rw [← this]; split_ifs <;> norm_num
  · rw [← List.map_append, info_real]
    have : zinfo (okOld ++ okNew) 0 2 2 0 = 3 := by decide +kernel
    rw [this]; norm_num

end Yac.Info
