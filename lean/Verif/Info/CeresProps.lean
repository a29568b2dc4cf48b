import Verif.Info.CeresModel
import Verif.Calib.CameraLemmas
import Mathlib.Data.Fintype.Card
import Mathlib.Data.Fintype.Sigma
import Mathlib.Data.Fintype.BigOperators

/-!
# C101: information and entropy are those of the joint covariance of the parameters
-/

namespace Yac.Info
open Yac.Solver Yac.Calib

variable {P : Type} [DecidableEq P]

/-! ### Specification -/

/-- The covariance of all pairs of `params`, as Ceres computed it: `S p q a b` is the covariance of
component `a` of `p` and component `b` of `q` (tangent space); Ceres reports it in the space of the
parameters too where these agree. -/
structure Covariance (blk : P → Blk) (c : CeresCov P) (params : List P) (S : P → P → Mat ℝ) : Prop where
  computed : ∀ l : List (P × P), (∀ x ∈ l, x.1 ∈ params ∧ x.2 ∈ params) → c.compute l = true
  tangent : ∀ p ∈ params, ∀ q ∈ params, c.tangent p q = some (S p q)
  ambient : ∀ p ∈ params, ∀ q ∈ params, (blk p).globalSize = (blk p).size →
    (blk q).globalSize = (blk q).size → c.ambient p q = some (S p q)
  symm : ∀ p ∈ params, ∀ q ∈ params, ∀ a b, S q p b a = S p q a b

/-- Blocks of size 6 (poses), and blocks whose tangent space is their space. -/
def Plain (blk : P → Blk) (params : List P) : Prop :=
  ∀ p ∈ params, (blk p).size = 6 ∨ (blk p).globalSize = (blk p).size

/-- The joint covariance matrix of the components of all parameters. -/
def joint (blk : P → Blk) (params : List P) (S : P → P → Mat ℝ) :
    Matrix ((p : {p // p ∈ params}) × Fin (blk p).size) ((p : {p // p ∈ params}) × Fin (blk p).size) ℝ :=
  fun x y => S x.1 y.1 x.2 y.2

/-- The number of components. -/
def dim (blk : P → Blk) (params : List P) : Nat := (params.map (fun p => (blk p).size)).sum

/-- The first row of a parameter: the sizes of those before it. -/
def offset (blk : P → Blk) (params : List P) (p : P) : Nat := dim blk (params.takeWhile (fun q => q ≠ p))

/-! ### Rows -/

theorem offset_cons_self (blk : P → Blk) (p : P) (l : List P) : offset blk (p :: l) p = 0 := by
  simp [offset, dim]

theorem offset_cons_ne (blk : P → Blk) (p : P) (l : List P) (q : P) (h : p ≠ q) :
    offset blk (p :: l) q = (blk p).size + offset blk l q := by
  simp [offset, dim, h]

theorem offset_le (blk : P → Blk) (l : List P) (p : P) (h : p ∈ l) :
    offset blk l p + (blk p).size ≤ dim blk l := by
  induction l with
  | nil => cases h
  | cons q l ih =>
    by_cases hq : q = p
    · subst hq
      rw [offset_cons_self]; simp [dim]
    · rw [offset_cons_ne blk q l p hq]
      have := ih ((List.mem_cons.mp h).resolve_left (fun e => hq e.symm))
      simp only [dim, List.map_cons, List.sum_cons] at this ⊢
      omega

/-- Rows of different parameters are different. -/
theorem offset_inj (blk : P → Blk) (l : List P) (p q : P) (hp : p ∈ l) (hq : q ∈ l) (a b : Nat)
    (ha : a < (blk p).size) (hb : b < (blk q).size) (h : offset blk l p + a = offset blk l q + b) :
    p = q ∧ a = b := by
  induction l with
  | nil => cases hp
  | cons r l ih =>
    by_cases h1 : r = p
    · subst h1
      by_cases h2 : r = q
      · subst h2; exact ⟨rfl, by omega⟩
      · rw [offset_cons_self, offset_cons_ne blk r l q h2] at h; omega
    · by_cases h2 : r = q
      · subst h2
        rw [offset_cons_self, offset_cons_ne blk r l p h1] at h; omega
      · rw [offset_cons_ne blk r l p h1, offset_cons_ne blk r l q h2] at h
        exact ih ((List.mem_cons.mp hp).resolve_left (fun e => h1 e.symm))
          ((List.mem_cons.mp hq).resolve_left (fun e => h2 e.symm)) (by omega)

theorem indices_aux (blk : P → Blk) (l : List P) (hn : l.Nodup) (hf : ∀ p ∈ l, (blk p).fixed = false)
    (s : (P → Nat) × Nat) :
    let r := l.foldl (fun (s : (P → Nat) × Nat) p => if (blk p).fixed then s
      else (fun q => if q = p then s.2 else s.1 q, s.2 + (blk p).size)) s
    r.2 = s.2 + dim blk l ∧ ∀ p, r.1 p = if p ∈ l then s.2 + offset blk l p else s.1 p := by
  induction l generalizing s with
  | nil => simp [dim]
  | cons q l ih =>
    obtain ⟨hq, hn⟩ := List.nodup_cons.mp hn
    rw [List.foldl_cons]
    simp only [hf q List.mem_cons_self, if_false, Bool.false_eq_true]
    obtain ⟨h1, h2⟩ := ih hn (fun p hp => hf p (List.mem_cons_of_mem _ hp))
      (fun r => if r = q then s.2 else s.1 r, s.2 + (blk q).size)
    refine ⟨?_, ?_⟩
    · rw [h1]; simp only [dim, List.map_cons, List.sum_cons]; omega
    · intro p
      rw [h2]
      by_cases hpq : p = q
      · subst hpq
        rw [if_neg hq, if_pos List.mem_cons_self, offset_cons_self, Nat.add_zero]
        exact if_pos rfl
      · by_cases hp : p ∈ l
        · rw [if_pos hp, if_pos (List.mem_cons_of_mem _ hp), offset_cons_ne blk q l p (fun e => hpq e.symm)]
          simp only; omega
        · rw [if_neg hp, if_neg (by simp [hpq, hp])]
          exact if_neg hpq

theorem indices (blk : P → Blk) (l : List P) (hn : l.Nodup) (hf : ∀ p ∈ l, (blk p).fixed = false) :
    (covIndices blk l).2 = dim blk l ∧ ∀ p ∈ l, (covIndices blk l).1 p = offset blk l p := by
  obtain ⟨h1, h2⟩ := indices_aux blk l hn hf (fun _ => 0, 0)
  refine ⟨by rw [covIndices, h1]; simp, ?_⟩
  intro p hp
  rw [covIndices, h2, if_pos hp]; simp

/-! ### Pairs -/

theorem pairsLe_mem (l : List P) (x : P × P × Bool) (h : x ∈ pairsLe l) : x.1 ∈ l ∧ x.2.1 ∈ l := by
  induction l with
  | nil => cases h
  | cons p l ih =>
    rw [pairsLe] at h
    rcases List.mem_append.mp h with h | h
    · rcases List.mem_cons.mp h with rfl | h
      · exact ⟨List.mem_cons_self, List.mem_cons_self⟩
      · obtain ⟨q, hq, rfl⟩ := List.mem_map.mp h
        exact ⟨List.mem_cons_self, List.mem_cons_of_mem _ hq⟩
    · exact ⟨List.mem_cons_of_mem _ (ih h).1, List.mem_cons_of_mem _ (ih h).2⟩

/-- A pair writes the covariance of `p` and `q`. -/
def Writes (x : P × P × Bool) (p q : P) : Prop :=
  (x.1 = p ∧ x.2.1 = q) ∨ (x.2.2 = true ∧ x.1 = q ∧ x.2.1 = p)

theorem pairsLe_covers (l : List P) (p q : P) (hp : p ∈ l) (hq : q ∈ l) : ∃ x ∈ pairsLe l, Writes x p q := by
  induction l with
  | nil => cases hp
  | cons r l ih =>
    rcases List.mem_cons.mp hp with hp' | hp'
    · rcases List.mem_cons.mp hq with hq' | hq'
      · exact ⟨(r, r, false), by simp [pairsLe], Or.inl ⟨hp'.symm, hq'.symm⟩⟩
      · exact ⟨(r, q, true), by simp [pairsLe, hq'], Or.inl ⟨hp'.symm, rfl⟩⟩
    · rcases List.mem_cons.mp hq with hq' | hq'
      · exact ⟨(r, p, true), by simp [pairsLe, hp'], Or.inr ⟨rfl, hq'.symm, rfl⟩⟩
      · obtain ⟨x, hx, hw⟩ := ih hp' hq'
        exact ⟨x, by simp [pairsLe, hx], hw⟩

theorem covBlock_eq {blk : P → Blk} {c : CeresCov P} {params : List P} {S : P → P → Mat ℝ}
    (h : Covariance blk c params S) (hs : Plain blk params) (p q : P) (hp : p ∈ params) (hq : q ∈ params) :
    covBlock blk c p q = .ok (some (S p q)) := by
  unfold covBlock
  split_ifs with h1 h2
  · rw [h.tangent p hp q hq]
  · exfalso
    push Not at h1
    have e1 := (hs p hp).resolve_left h1.1
    have e2 := (hs q hq).resolve_left h1.2
    rw [e1, e2] at h2
    exact lt_irrefl _ h2
  · push Not at h1
    rw [h.ambient p hp q hq ((hs p hp).resolve_left h1.1) ((hs q hq).resolve_left h1.2)]

theorem setBlock_at (blk : P → Blk) (l : List P) (M B : Mat ℝ) (p q : P) (hp : p ∈ l) (hq : q ∈ l)
    (p' q' : P) (hp' : p' ∈ l) (hq' : q' ∈ l) (a b : Nat) (ha : a < (blk p').size) (hb : b < (blk q').size) :
    setBlock M (offset blk l p) (offset blk l q) (blk p).size (blk q).size B
      (offset blk l p' + a) (offset blk l q' + b) =
    if p = p' ∧ q = q' then B a b else M (offset blk l p' + a) (offset blk l q' + b) := by
  unfold setBlock
  by_cases h : p = p' ∧ q = q'
  · obtain ⟨rfl, rfl⟩ := h
    rw [if_pos (by omega), if_pos ⟨rfl, rfl⟩]
    congr 1 <;> omega
  · rw [if_neg h, if_neg]
    rintro ⟨h1, h2, h3, h4⟩
    apply h
    refine ⟨(offset_inj blk l p p' hp hp' (offset blk l p' + a - offset blk l p) a (by omega) ha (by omega)).1,
      (offset_inj blk l q q' hq hq' (offset blk l q' + b - offset blk l q) b (by omega) hb (by omega)).1⟩

/-- The state of the loop over the pairs. -/
theorem pairs_loop {blk : P → Blk} {c : CeresCov P} {params : List P} {S : P → P → Mat ℝ}
    (h : Covariance blk c params S) (hs : Plain blk params) (idx : P → Nat)
    (hidx : ∀ p ∈ params, idx p = offset blk params p) (xs : List (P × P × Bool))
    (hxs : ∀ x ∈ xs, x.1 ∈ params ∧ x.2.1 ∈ params) (M : Mat ℝ) :
    ∃ M', xs.foldlM (covPair blk c idx (dim blk params)) (some M) = .ok (some M') ∧
      ∀ p ∈ params, ∀ q ∈ params, ∀ a b, a < (blk p).size → b < (blk q).size →
        ((∃ x ∈ xs, Writes x p q) → M' (offset blk params p + a) (offset blk params q + b) = S p q a b) ∧
        ((∀ x ∈ xs, ¬ Writes x p q) → M' (offset blk params p + a) (offset blk params q + b) =
          M (offset blk params p + a) (offset blk params q + b)) := by
  classical
  induction xs generalizing M with
  | nil => exact ⟨M, rfl, fun _ _ _ _ _ _ _ _ => ⟨fun ⟨_, h, _⟩ => absurd h List.not_mem_nil, fun _ => rfl⟩⟩
  | cons x xs ih =>
    obtain ⟨hx1, hx2⟩ := hxs x List.mem_cons_self
    have hstep : ∃ M₁, covPair blk c idx (dim blk params) (some M) x = .ok (some M₁) ∧
        ∀ p ∈ params, ∀ q ∈ params, ∀ a b, a < (blk p).size → b < (blk q).size →
          M₁ (offset blk params p + a) (offset blk params q + b) =
          if Writes x p q then S p q a b else M (offset blk params p + a) (offset blk params q + b) := by
      unfold covPair
      simp only
      rw [covBlock_eq h hs _ _ hx1 hx2, AprilGrid.ok_bind, hidx _ hx1, hidx _ hx2]
      simp only
      have b1 := offset_le blk params _ hx1
      have b2 := offset_le blk params _ hx2
      rw [if_neg (by omega)]
      refine ⟨_, rfl, ?_⟩
      intro p hp q hq a b ha hb
      cases hfl : x.2.2 with
      | false =>
        simp only [Bool.false_eq_true, if_false]
        rw [setBlock_at blk params M _ _ _ hx1 hx2 p q hp hq a b ha hb]
        by_cases he : x.1 = p ∧ x.2.1 = q
        · rw [if_pos he, if_pos (show Writes x p q from Or.inl he), he.1, he.2]
        · rw [if_neg he, if_neg]
          rintro (hw | hw)
          · exact he hw
          · rw [hfl] at hw; simp at hw
      | true =>
        simp only [if_true]
        rw [setBlock_at blk params _ _ _ _ hx2 hx1 p q hp hq a b ha hb,
          setBlock_at blk params M _ _ _ hx1 hx2 p q hp hq a b ha hb]
        by_cases he : x.2.1 = p ∧ x.1 = q
        · rw [if_pos he, if_pos (show Writes x p q from Or.inr ⟨hfl, he.2, he.1⟩), he.1, he.2, h.symm p hp q hq]
        · rw [if_neg he]
          by_cases he' : x.1 = p ∧ x.2.1 = q
          · rw [if_pos he', if_pos (show Writes x p q from Or.inl he'), he'.1, he'.2]
          · rw [if_neg he', if_neg]
            rintro (hw | hw)
            · exact he' hw
            · exact he ⟨hw.2.2, hw.2.1⟩
    obtain ⟨M₁, h1, h2⟩ := hstep
    obtain ⟨M', h3, h4⟩ := ih (fun y hy => hxs y (List.mem_cons_of_mem _ hy)) M₁
    refine ⟨M', by rw [List.foldlM_cons, h1, AprilGrid.ok_bind, h3], ?_⟩
    intro p hp q hq a b ha hb
    obtain ⟨i1, i2⟩ := h4 p hp q hq a b ha hb
    constructor
    · rintro ⟨y, hy, hw⟩
      by_cases hex : ∃ z ∈ xs, Writes z p q
      · exact i1 hex
      · push Not at hex
        rw [i2 hex, h2 p hp q hq a b ha hb]
        rcases List.mem_cons.mp hy with rfl | hy
        · rw [if_pos hw]
        · exact absurd hw (hex y hy)
    · intro hno
      rw [i2 (fun z hz => hno z (List.mem_cons_of_mem _ hz)), h2 p hp q hq a b ha hb,
        if_neg (hno x List.mem_cons_self)]

/-- **C101, the covariance matrix.**  For all parameters that differ and are not fixed,
`estimate_covariance` returns the matrix of all covariances, the parameters in the order given. -/
theorem C101_covariance (blk : P → Blk) (c : CeresCov P) (params : List P) (S : P → P → Mat ℝ)
    (h : Covariance blk c params S) (hs : Plain blk params) (hn : params.Nodup)
    (hf : ∀ p ∈ params, (blk p).fixed = false) :
    ∃ M, ceresCovariance blk c params = .ok (some (dim blk params, M)) ∧
      ∀ p ∈ params, ∀ q ∈ params, ∀ a b, a < (blk p).size → b < (blk q).size →
        M (offset blk params p + a) (offset blk params q + b) = S p q a b := by
  obtain ⟨hsz, hidx⟩ := indices blk params hn hf
  obtain ⟨M, h1, h2⟩ := pairs_loop h hs _ hidx (pairsLe params) (pairsLe_mem params) (fun _ _ => 0)
  refine ⟨M, ?_, fun p hp q hq a b ha hb => (h2 p hp q hq a b ha hb).1 (pairsLe_covers params p q hp hq)⟩
  unfold ceresCovariance
  simp only
  rw [if_neg, hsz, h1, AprilGrid.ok_bind]
  · rfl
  · rw [h.computed]
    · simp
    · intro x hx
      obtain ⟨y, hy, rfl⟩ := List.mem_map.mp hx
      exact pairsLe_mem params y hy

/-- The rows of the components. -/
def rowOf (blk : P → Blk) (params : List P) (x : (p : {p // p ∈ params}) × Fin (blk p).size) :
    Fin (dim blk params) :=
  ⟨offset blk params x.1 + x.2, lt_of_lt_of_le (Nat.add_lt_add_left x.2.isLt _) (offset_le blk params x.1 x.1.2)⟩

theorem rowOf_bij (blk : P → Blk) (params : List P) (hn : params.Nodup) :
    Function.Bijective (rowOf blk params) := by
  rw [Fintype.bijective_iff_injective_and_card]
  constructor
  · rintro ⟨⟨p, hp⟩, a⟩ ⟨⟨q, hq⟩, b⟩ h
    have h : offset blk params p + a = offset blk params q + b := congrArg Fin.val h
    obtain ⟨rfl, e⟩ := offset_inj blk params p q hp hq a b a.isLt b.isLt h
    have : a = b := Fin.ext e
    subst this
    rfl
  · rw [Fintype.card_sigma, Fintype.card_fin]
    simp only [Fintype.card_fin]
    rw [dim, ← List.sum_toFinset (fun p => (blk p).size) hn]
    exact (Finset.sum_subtype params.toFinset (fun x => by simp) (fun p => (blk p).size)).symm

theorem det_joint (blk : P → Blk) (params : List P) (S : P → P → Mat ℝ) (hn : params.Nodup) (M : Mat ℝ)
    (hM : ∀ p ∈ params, ∀ q ∈ params, ∀ a b, a < (blk p).size → b < (blk q).size →
      M (offset blk params p + a) (offset blk params q + b) = S p q a b) :
    (corner (dim blk params) M).det = (joint blk params S).det := by
  let e := Equiv.ofBijective _ (rowOf_bij blk params hn)
  rw [← Matrix.det_submatrix_equiv_self e]
  congr 1
  ext x y
  exact hM x.1 x.1.2 y.1 y.1.2 x.2 y.2 x.2.isLt y.2.isLt

/-- **C101, information and entropy.**  For every calibration whose intrinsics and extrinsics that are
not fixed have joint covariance `S` (of positive determinant): `_calc_info` gives the binary logarithm of
the determinant, and the differential entropy of the normal distribution with this covariance in nats.  Fixed
parameters do not enter. -/
theorem C101_info (blk : P → Blk) (c : CeresCov P) (cams exts : List P) (hn : (cams ++ exts).Nodup)
    (S : P → P → Mat ℝ) (params : List P)
    (hp : ∀ p, p ∈ params ↔ p ∈ cams ++ exts ∧ (blk p).fixed = false) (hpn : params.Nodup)
    (h : Covariance blk c params S) (hs : Plain blk params) (hpos : 0 < (joint blk params S).det) :
    calcInfo blk c cams exts = .ok (some
      (((Real.logb 2 (joint blk params S).det : ℝ) : WithBot ℝ),
       ((1 / 2 * Real.log ((2 * Real.pi * Real.exp 1) ^ dim blk params * (joint blk params S).det) : ℝ) :
          WithBot ℝ))) := by
  have hip : infoParams blk cams exts = (cams ++ exts).filter (fun p => !(blk p).fixed) := by
    rw [List.filter_append]; rfl
  have hnod : (infoParams blk cams exts).Nodup := by rw [hip]; exact hn.filter _
  have hmem : ∀ p, p ∈ infoParams blk cams exts ↔ p ∈ params := by
    intro p; rw [hip, hp]; simp only [List.mem_filter, Bool.not_eq_true']
  have hperm : (infoParams blk cams exts).Perm params :=
    (List.perm_ext_iff_of_nodup hnod hpn).mpr hmem
  have hdim : dim blk (infoParams blk cams exts) = dim blk params := (hperm.map _).sum_eq
  have h' : Covariance blk c (infoParams blk cams exts) S :=
    ⟨fun l hl => h.computed l (fun x hx => ⟨(hmem _).mp (hl x hx).1, (hmem _).mp (hl x hx).2⟩),
      fun p hp q hq => h.tangent p ((hmem p).mp hp) q ((hmem q).mp hq),
      fun p hp q hq => h.ambient p ((hmem p).mp hp) q ((hmem q).mp hq),
      fun p hp q hq => h.symm p ((hmem p).mp hp) q ((hmem q).mp hq)⟩
  obtain ⟨M, h1, h2⟩ := C101_covariance blk c (infoParams blk cams exts) S h'
    (fun p hp => hs p ((hmem p).mp hp)) hnod (fun p hp' => ((hp p).mp ((hmem p).mp hp')).2)
  have hdet : (corner (dim blk (infoParams blk cams exts)) M).det = (joint blk params S).det := by
    rw [det_joint blk (infoParams blk cams exts) S hnod M h2]
    let e : ((p : {p // p ∈ params}) × Fin (blk p).size) ≃
        ((p : {p // p ∈ infoParams blk cams exts}) × Fin (blk p).size) :=
      Equiv.sigmaCongrLeft' (β := fun p : {p // p ∈ params} => Fin (blk p).size)
        (Equiv.subtypeEquivRight (fun p => (hmem p).symm))
    rw [← Matrix.det_submatrix_equiv_self e]
    rfl
  unfold calcInfo calcInfoOf ceresLogDet
  rw [h1, AprilGrid.ok_bind, AprilGrid.ok_bind]
  simp only [Option.map_some, Option.bind_some]
  rw [hdet]
  unfold cLog
  rw [if_neg (by linarith), if_neg hpos.ne']
  show Except.ok (some ((((Real.log (joint blk params S).det) / Real.log 2 : ℝ) : WithBot ℝ),
      ((0.5 * Real.log ((2 * Real.pi * Real.exp 1) ^ (dim blk (infoParams blk cams exts)) *
        Real.exp (Real.log (joint blk params S).det)) : ℝ) : WithBot ℝ))) = _
  rw [hdim, Real.exp_log hpos, Real.logb]
  norm_num

/-- **C101, the gain.**  Half the difference of the information of two calibrations of the same
parameters, which `add_nbv_view` compares with the threshold, is the decrease of the entropy in bits. -/
theorem C101_gain (blk : P → Blk) (c₁ c₂ : CeresCov P) (cams exts : List P) (hn : (cams ++ exts).Nodup)
    (S₁ S₂ : P → P → Mat ℝ) (params : List P)
    (hp : ∀ p, p ∈ params ↔ p ∈ cams ++ exts ∧ (blk p).fixed = false) (hpn : params.Nodup)
    (h₁ : Covariance blk c₁ params S₁) (h₂ : Covariance blk c₂ params S₂) (hs : Plain blk params)
    (hpos₁ : 0 < (joint blk params S₁).det) (hpos₂ : 0 < (joint blk params S₂).det) :
    ∃ i₁ e₁ i₂ e₂ : ℝ, calcInfo blk c₁ cams exts = .ok (some (i₁, e₁)) ∧
      calcInfo blk c₂ cams exts = .ok (some (i₂, e₂)) ∧
      1 / 2 * (i₁ - i₂) = (e₁ - e₂) / Real.log 2 := by
  refine ⟨_, _, _, _, C101_info blk c₁ cams exts hn S₁ params hp hpn h₁ hs hpos₁,
    C101_info blk c₂ cams exts hn S₂ params hp hpn h₂ hs hpos₂, ?_⟩
  have hk : ((2 * Real.pi * Real.exp 1) ^ dim blk params : ℝ) ≠ 0 := by
    have := Real.pi_pos
    have := Real.exp_pos 1
    positivity
  rw [Real.log_mul hk hpos₁.ne', Real.log_mul hk hpos₂.ne']
  have hl : Real.log 2 ≠ 0 := by
    have := Real.log_pos (by norm_num : (1 : ℝ) < 2)
    linarith
  simp only [Real.logb]
  field_simp
  ring

/-- **C101, failure.**  If Ceres cannot compute the covariance, or the determinant is negative, there is
no information. -/
theorem C101_fails (blk : P → Blk) (c : CeresCov P) (cams exts : List P)
    (h : ∀ l, c.compute l = false) : calcInfo blk c cams exts = .ok none := by
  unfold calcInfo calcInfoOf ceresLogDet ceresCovariance
  simp only [h, if_true]
  rfl

/-- **C101, the mocap calibration.**  Information and entropy of the marker-to-camera extrinsics, if
these are not fixed. -/
theorem C101_mocap (blk : P → Blk) (c : CeresCov P) (e : P) (he : blk e = ⟨false, 6, 7⟩) (S : P → P → Mat ℝ)
    (h : Covariance blk c [e] S) (hpos : 0 < (corner 6 (S e e)).det) :
    mocapInfo blk c e = .ok (some
      (((Real.logb 2 (corner 6 (S e e)).det : ℝ) : WithBot ℝ),
       ((1 / 2 * Real.log ((2 * Real.pi * Real.exp 1) ^ 6 * (corner 6 (S e e)).det) : ℝ) : WithBot ℝ))) := by
  obtain ⟨M, h1, h2⟩ := C101_covariance blk c [e] S h (fun p hp => Or.inl (by
    rw [List.mem_singleton.mp hp, he])) (List.nodup_singleton e) (fun p hp => by
    rw [List.mem_singleton.mp hp, he])
  have hd : dim blk [e] = 6 := by simp [dim, he]
  have hdet : (corner 6 M).det = (corner 6 (S e e)).det := by
    congr 1
    ext a b
    have h3 := h2 e (List.mem_singleton.mpr rfl) e (List.mem_singleton.mpr rfl) a b
      (by rw [he]; exact a.isLt) (by rw [he]; exact b.isLt)
    rw [offset_cons_self, Nat.zero_add, Nat.zero_add] at h3
    exact h3
  unfold mocapInfo calcInfoOf ceresLogDet
  rw [h1, AprilGrid.ok_bind, AprilGrid.ok_bind, hd]
  simp only [Option.map_some, Option.bind_some]
  rw [hdet]
  unfold cLog
  rw [if_neg (by linarith), if_neg hpos.ne']
  show Except.ok (some ((((Real.log (corner 6 (S e e)).det) / Real.log 2 : ℝ) : WithBot ℝ),
      ((0.5 * Real.log ((2 * Real.pi * Real.exp 1) ^ 6 *
        Real.exp (Real.log (corner 6 (S e e)).det)) : ℝ) : WithBot ℝ))) = _
  rw [Real.exp_log hpos, Real.logb]
  norm_num

/-- **C101 is false of a singular covariance.**  If the joint covariance has determinant 0, the
information is reported as -infinity, not as unavailable: the comment in the code says that the rank is to
be checked, but the check is commented out. -/
theorem C101_singular_refuted (blk : P → Blk) (c : CeresCov P) (cams exts : List P)
    (hn : (cams ++ exts).Nodup) (S : P → P → Mat ℝ)
    (h : Covariance blk c (infoParams blk cams exts) S) (hs : Plain blk (infoParams blk cams exts))
    (h0 : (joint blk (infoParams blk cams exts) S).det = 0) :
    calcInfo blk c cams exts = .ok (some (⊥, ⊥)) := by
  have hip : infoParams blk cams exts = (cams ++ exts).filter (fun p => !(blk p).fixed) := by
    rw [List.filter_append]; rfl
  have hnod : (infoParams blk cams exts).Nodup := by rw [hip]; exact hn.filter _
  obtain ⟨M, h1, h2⟩ := C101_covariance blk c (infoParams blk cams exts) S h hs hnod (fun p hp => by
    rw [hip] at hp
    simpa using (List.mem_filter.mp hp).2)
  have hdet := det_joint blk (infoParams blk cams exts) S hnod M h2
  unfold calcInfo calcInfoOf ceresLogDet
  rw [h1, AprilGrid.ok_bind, AprilGrid.ok_bind]
  simp only [Option.map_some, Option.bind_some]
  rw [hdet, h0]
  unfold cLog
  rw [if_neg (lt_irrefl _), if_pos rfl]
  rfl

/-- **C101 is false of fixed parameters passed to `estimate_covariance`.**  A fixed parameter has no rows
of its own; its zero covariance overwrites that of the first free parameter of the same size. -/
theorem C101_fixed_refuted (blk : P → Blk) (c : CeresCov P) (p f : P) (hpf : p ≠ f) (n : Nat) (hn : n ≠ 6)
    (hp : blk p = ⟨false, n, n⟩) (hfx : blk f = ⟨true, n, n⟩) (hc : ∀ l, c.compute l = true)
    (S : Mat ℝ) (h1 : c.ambient p p = some S) (h2 : c.ambient p f = some (fun _ _ => 0))
    (h3 : c.ambient f f = some (fun _ _ => 0)) :
    ∃ M, ceresCovariance blk c [p, f] = .ok (some (n, M)) ∧ ∀ a b, M a b = 0 := by
  have hix : (covIndices blk [p, f]).2 = n ∧ (covIndices blk [p, f]).1 p = 0 ∧ (covIndices blk [p, f]).1 f = 0 := by
    simp [covIndices, hp, hfx]
  have hb : ∀ x y, (x = p ∨ x = f) → (y = p ∨ y = f) → covBlock blk c x y = .ok (c.ambient x y) := by
    intro x y hx hy
    have ex : (blk x).size = n ∧ (blk x).globalSize = n := by rcases hx with rfl | rfl <;> simp [hp, hfx]
    have ey : (blk y).size = n ∧ (blk y).globalSize = n := by rcases hy with rfl | rfl <;> simp [hp, hfx]
    unfold covBlock
    rw [ex.1, ex.2, ey.1, ey.2, if_neg (by simp [hn]), if_neg (lt_irrefl _)]
  have sz : (blk p).size = n ∧ (blk f).size = n := by simp [hp, hfx]
  have step : ∀ (M B : Mat ℝ) x y fl, (x = p ∨ x = f) → (y = p ∨ y = f) → c.ambient x y = some B →
      covPair blk c (covIndices blk [p, f]).1 (covIndices blk [p, f]).2 (some M) (x, y, fl) =
      .ok (some (if fl then setBlock (setBlock M 0 0 n n B) 0 0 n n (fun a b => B b a) else setBlock M 0 0 n n B)) := by
    intro M B x y fl hx hy hB
    have ex : (blk x).size = n := by rcases hx with rfl | rfl <;> simp [hp, hfx]
    have ey : (blk y).size = n := by rcases hy with rfl | rfl <;> simp [hp, hfx]
    have ix : (covIndices blk [p, f]).1 x = 0 := by rcases hx with rfl | rfl; exacts [hix.2.1, hix.2.2]
    have iy : (covIndices blk [p, f]).1 y = 0 := by rcases hy with rfl | rfl; exacts [hix.2.1, hix.2.2]
    unfold covPair
    simp only
    rw [hb x y hx hy, hB, AprilGrid.ok_bind, ix, iy, ex, ey, hix.1]
    simp only
    rw [if_neg (by omega)]
  refine ⟨setBlock (setBlock (setBlock (setBlock (fun _ _ => 0) 0 0 n n S) 0 0 n n (fun _ _ => 0)) 0 0 n n
    (fun _ _ => 0)) 0 0 n n (fun _ _ => 0), ?_, ?_⟩
  · unfold ceresCovariance
    simp only [hc, Bool.true_eq_false, if_false]
    rw [show pairsLe [p, f] = [(p, p, false), (p, f, true), (f, f, false)] from rfl,
      List.foldlM_cons, step _ _ p p false (Or.inl rfl) (Or.inl rfl) h1, AprilGrid.ok_bind,
      List.foldlM_cons, step _ _ p f true (Or.inl rfl) (Or.inr rfl) h2, AprilGrid.ok_bind,
      List.foldlM_cons, step _ _ f f false (Or.inr rfl) (Or.inr rfl) h3, AprilGrid.ok_bind, List.foldlM_nil]
    rw [hix.1]
    rfl
  · intro a b
    simp only [setBlock]
    split_ifs <;> rfl

/-- **C101 is false of a fixed mocap extrinsics.**  `_calc_info` of the mocap calibration writes the
6 x 6 covariance of fixed extrinsics into a matrix of size 0. -/
theorem C101_mocap_fixed_refuted (blk : P → Blk) (c : CeresCov P) (e : P) (he : blk e = ⟨true, 6, 7⟩)
    (hc : ∀ l, c.compute l = true) (B : Mat ℝ) (hB : c.tangent e e = some B) :
    mocapInfo blk c e = .error .oob := by
  unfold mocapInfo calcInfoOf ceresLogDet ceresCovariance
  simp only [hc, Bool.true_eq_false, if_false]
  rw [show pairsLe [e] = [(e, e, false)] from rfl, List.foldlM_cons]
  have : covPair blk c (covIndices blk [e]).1 (covIndices blk [e]).2 (some (fun _ _ => 0)) (e, e, false) = .error .oob := by
    unfold covPair covBlock
    simp only [he, true_or, if_true, hB, AprilGrid.ok_bind]
    rw [if_pos]
    left
    simp [covIndices, he]
  rw [this]
  rfl

end Yac.Info
