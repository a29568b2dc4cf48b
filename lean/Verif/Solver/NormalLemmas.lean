import Verif.Solver.OrderLemmas
import Mathlib.Algebra.BigOperators.Ring.Finset
import Mathlib.Algebra.BigOperators.Intervals
import Mathlib.Tactic.Ring

namespace Yac.Solver
open Finset

variable {K P : Type} [DecidableEq P] [CommRing K]

theorem sumN_eq (n : Nat) (f : Nat → K) : sumN n f = ∑ k ∈ range n, f k := by
  induction n with
  | zero => rfl
  | succ n ih => rw [sumN, ih, sum_range_succ]

/-- Entry of one block in the full row. -/
def ent (info : P → ParamInfo) (c : P → Nat) (b : P × Mat K) (k a : Nat) : K :=
  if InCol info c b.1 a then b.2 k (a - c b.1) else 0

/-- Row `k` of a residual's stacked Jacobian, column `a`. -/
def rowG (info : P → ParamInfo) (c : P → Nat) : List (P × Mat K) → Nat → Nat → K
  | [], _, _ => 0
  | b :: bs, k, a => (if (info b.1).fixed then 0 else ent info c b k a) + rowG info c bs k a

theorem addBlock_tMul (info : P → ParamInfo) (c : P → Nat) (n : Nat) (bi bj : P × Mat K)
    (H : Mat K) (a b : Nat) :
    addBlock H (c bi.1) (c bj.1) (info bi.1).size (info bj.1).size (tMul n bi.2 bj.2) a b =
      H a b + ∑ k ∈ range n, ent info c bi k a * ent info c bj k b := by
  unfold addBlock ent InCol tMul
  by_cases h1 : c bi.1 ≤ a ∧ a < c bi.1 + (info bi.1).size
  · by_cases h2 : c bj.1 ≤ b ∧ b < c bj.1 + (info bj.1).size
    · rw [if_pos ⟨h1.1, h1.2, h2.1, h2.2⟩]
      simp only [h1, h2, and_self, if_true, sumN_eq]
    · rw [if_neg (by tauto)]; simp [h2]
  · rw [if_neg (by tauto)]; simp [h1]

theorem hessInner_eq (info : P → ParamInfo) (c : P → Nat) (n : Nat) (bi : P × Mat K)
    (rest : List (P × Mat K)) (H : Mat K) (a b : Nat) :
    hessInner info c n bi H rest a b =
      H a b + ∑ k ∈ range n, (ent info c bi k a * rowG info c rest k b
        + rowG info c rest k a * ent info c bi k b) := by
  unfold hessInner
  induction rest generalizing H with
  | nil => simp [rowG]
  | cons bj rest ih =>
    rw [List.foldl_cons, ih]
    by_cases hf : (info bj.1).fixed = true
    · simp [hf, rowG]
    · simp only [hf, Bool.false_eq_true, if_false, rowG]
      have ht : (fun a b => tMul n bi.2 bj.2 b a) = tMul n bj.2 bi.2 := by
        funext x y; simp only [tMul, sumN_eq]; exact sum_congr rfl (fun k _ => mul_comm _ _)
      rw [ht, addBlock_tMul, addBlock_tMul, add_assoc, add_assoc, ← sum_add_distrib, ← sum_add_distrib]
      congr 1
      apply sum_congr rfl
      intro k _; ring

theorem addSeg_eq (info : P → ParamInfo) (c : P → Nat) (n : Nat) (bi : P × Mat K) (r v : Nat → K)
    (a : Nat) :
    addSeg v (c bi.1) (info bi.1).size (fun a => sumN n (fun k => - bi.2 k a * r k)) a =
      v a - ∑ k ∈ range n, ent info c bi k a * r k := by
  unfold addSeg ent InCol
  by_cases h1 : c bi.1 ≤ a ∧ a < c bi.1 + (info bi.1).size
  · rw [if_pos h1]
    simp only [h1, and_self, if_true, sumN_eq, neg_mul, sum_neg_distrib, sub_eq_add_neg]
  · rw [if_neg h1]; simp [h1]

theorem hessBlocks_eq (info : P → ParamInfo) (c : P → Nat) (n : Nat) (r : Nat → K)
    (bs : List (P × Mat K)) (H : Mat K) (v : Nat → K) :
    (∀ a b, (hessBlocks info c n r H v bs).1 a b =
      H a b + ∑ k ∈ range n, rowG info c bs k a * rowG info c bs k b) ∧
    (∀ a, (hessBlocks info c n r H v bs).2 a =
      v a - ∑ k ∈ range n, rowG info c bs k a * r k) := by
  induction bs generalizing H v with
  | nil => simp [hessBlocks, rowG]
  | cons bi rest ih =>
    rw [hessBlocks]
    by_cases hf : (info bi.1).fixed = true
    · simp only [hf, if_true, rowG, zero_add]; exact ih H v
    · simp only [hf, Bool.false_eq_true, if_false, rowG]
      constructor
      · intro a b
        rw [(ih _ _).1, hessInner_eq, addBlock_tMul, add_assoc, add_assoc, ← sum_add_distrib,
          ← sum_add_distrib]
        congr 1
        apply sum_congr rfl
        intro k _; ring
      · intro a
        rw [(ih _ _).2, addSeg_eq, sub_sub, ← sum_add_distrib]
        congr 1
        apply sum_congr rfl
        intro k _; ring

/-- Stacked Jacobian. -/
def stackJ (info : P → ParamInfo) (c : P → Nat) : List (Res K P) → Nat → Nat → K
  | [], _, _ => 0
  | f :: fs, k, a => if k < f.size then rowG info c f.blocks k a else stackJ info c fs (k - f.size) a

/-- Stacked residual. -/
def stackR : List (Res K P) → Nat → K
  | [], _ => 0
  | f :: fs, k => if k < f.size then f.r k else stackR fs (k - f.size)

theorem hess_all (info : P → ParamInfo) (c : P → Nat) (fs : List (Res K P)) (H : Mat K)
    (v : Nat → K) :
    let Hb := fs.foldl (fun (Hb : Mat K × (Nat → K)) f =>
      hessBlocks info c f.size f.r Hb.1 Hb.2 f.blocks) (H, v)
    (∀ a b, Hb.1 a b = H a b + ∑ k ∈ range (resLen fs), stackJ info c fs k a * stackJ info c fs k b) ∧
    (∀ a, Hb.2 a = v a - ∑ k ∈ range (resLen fs), stackJ info c fs k a * stackR fs k) := by
  induction fs generalizing H v with
  | nil => simp [resLen]
  | cons f fs ih =>
    have hsplit : ∀ g : Nat → K, ∑ k ∈ range (resLen (f :: fs)), g k =
        ∑ k ∈ range f.size, g k + ∑ k ∈ range (resLen fs), g (f.size + k) := by
      intro g; rw [resLen, sum_range_add]
    simp only [List.foldl_cons]
    obtain ⟨i1, i2⟩ := ih (hessBlocks info c f.size f.r H v f.blocks).1
      (hessBlocks info c f.size f.r H v f.blocks).2
    obtain ⟨h1, h2⟩ := hessBlocks_eq info c f.size f.r f.blocks H v
    constructor
    · intro a b
      rw [i1, h1, hsplit, add_assoc]
      congr 2
      · apply sum_congr rfl
        intro k hk
        have := mem_range.mp hk
        simp [stackJ, this]
      · apply sum_congr rfl
        intro k _
        simp [stackJ]
    · intro a
      rw [i2, h2, hsplit, sub_sub]
      congr 2
      · apply sum_congr rfl
        intro k hk
        have := mem_range.mp hk
        simp [stackJ, stackR, this]
      · apply sum_congr rfl
        intro k _
        simp [stackJ, stackR]

/-! ## The dense Jacobian -/

theorem rowG_zero (info : P → ParamInfo) (c : P → Nat) (bs : List (P × Mat K)) (k a : Nat)
    (h : ∀ b ∈ bs, (info b.1).fixed = false → ¬ InCol info c b.1 a) : rowG info c bs k a = 0 := by
  induction bs with
  | nil => rfl
  | cons b bs ih =>
    rw [rowG, ih (fun x hx => h x (by simp [hx])), add_zero]
    split_ifs with hf
    · rfl
    · rw [ent, if_neg (h b (by simp) (by simpa using hf))]

theorem rowG_single (info : P → ParamInfo) (c : P → Nat) (bs : List (P × Mat K)) (k a : Nat)
    (hn : (bs.map Prod.fst).Nodup)
    (hd : ∀ b ∈ bs, ∀ b' ∈ bs, (info b.1).fixed = false → (info b'.1).fixed = false →
      InCol info c b.1 a → InCol info c b'.1 a → b.1 = b'.1)
    (b : P × Mat K) (hb : b ∈ bs) (hf : (info b.1).fixed = false) (hc : InCol info c b.1 a) :
    rowG info c bs k a = b.2 k (a - c b.1) := by
  induction bs with
  | nil => simp at hb
  | cons b' bs ih =>
    rw [List.map_cons, List.nodup_cons] at hn
    rcases List.mem_cons.mp hb with rfl | hb'
    · rw [rowG, rowG_zero, add_zero]
      · simp [hf, ent, hc]
      · intro x hx hxf hxc
        have := hd x (by simp [hx]) b (by simp) hxf hf hxc hc
        exact hn.1 (List.mem_map.mpr ⟨x, hx, this⟩)
    · rw [rowG, ih hn.2 (fun x hx y hy => hd x (by simp [hx]) y (by simp [hy])) hb']
      split_ifs with hbf
      · simp
      · rw [ent, if_neg, zero_add]
        intro hbc
        have := hd b (by simp [hb']) b' (by simp) hf (by simpa using hbf) hc hbc
        exact hn.1 (List.mem_map.mpr ⟨b, hb', this⟩)

theorem jacRes_eq (info : P → ParamInfo) (c : P → Nat) (row n : Nat) (bs : List (P × Mat K))
    (J : Mat K) (a b : Nat) (hn : (bs.map Prod.fst).Nodup)
    (hd : ∀ x ∈ bs, ∀ y ∈ bs, (info x.1).fixed = false → (info y.1).fixed = false →
      InCol info c x.1 b → InCol info c y.1 b → x.1 = y.1) :
    jacRes info c row n J bs a b =
      if row ≤ a ∧ a < row + n ∧ ∃ x ∈ bs, (info x.1).fixed = false ∧ InCol info c x.1 b
      then rowG info c bs (a - row) b else J a b := by
  unfold jacRes
  induction bs generalizing J with
  | nil => simp
  | cons x bs ih =>
    rw [List.map_cons, List.nodup_cons] at hn
    rw [List.foldl_cons, ih _ hn.2 (fun u hu v hv => hd u (by simp [hu]) v (by simp [hv]))]
    have hcons : (∃ y ∈ x :: bs, (info y.1).fixed = false ∧ InCol info c y.1 b) ↔
        ((info x.1).fixed = false ∧ InCol info c x.1 b) ∨
        ∃ y ∈ bs, (info y.1).fixed = false ∧ InCol info c y.1 b := by
      simp only [List.mem_cons, exists_eq_or_imp]
    by_cases hr : row ≤ a ∧ a < row + n
    · by_cases hx : (info x.1).fixed = false ∧ InCol info c x.1 b
      · have hno : ¬ ∃ y ∈ bs, (info y.1).fixed = false ∧ InCol info c y.1 b := by
          rintro ⟨y, hy, hyf, hyc⟩
          have := hd y (by simp [hy]) x (by simp) hyf hx.1 hyc hx.2
          exact hn.1 (List.mem_map.mpr ⟨y, hy, this⟩)
        have hc' : row ≤ a ∧ a < row + n ∧
            ∃ y ∈ x :: bs, (info y.1).fixed = false ∧ InCol info c y.1 b :=
          ⟨hr.1, hr.2, hcons.mpr (Or.inl hx)⟩
        rw [if_neg (fun h => hno h.2.2), if_pos hc', rowG, rowG_zero, add_zero]
        · simp only [hx.1, Bool.false_eq_true, if_false]
          rw [setBlock, if_pos ⟨hr.1, hr.2, hx.2.1, hx.2.2⟩, ent, if_pos hx.2]
        · intro y hy hyf hyc; exact hno ⟨y, hy, hyf, hyc⟩
      · have hset : (if (info x.1).fixed = true then J
            else setBlock J row (c x.1) n (info x.1).size x.2) a b = J a b := by
          by_cases hf : (info x.1).fixed = true
          · rw [if_pos hf]
          · rw [if_neg hf, setBlock, if_neg]
            intro h; exact hx ⟨by simpa using hf, h.2.2.1, h.2.2.2⟩
        have hrow : rowG info c (x :: bs) (a - row) b = rowG info c bs (a - row) b := by
          rw [rowG]
          by_cases hf : (info x.1).fixed = true
          · rw [if_pos hf, zero_add]
          · rw [if_neg hf, ent, if_neg (fun h => hx ⟨by simpa using hf, h⟩), zero_add]
        rw [hset, hrow]
        by_cases hex : ∃ y ∈ bs, (info y.1).fixed = false ∧ InCol info c y.1 b
        · rw [if_pos ⟨hr.1, hr.2, hex⟩, if_pos ⟨hr.1, hr.2, hcons.mpr (Or.inr hex)⟩]
        · rw [if_neg (fun h => hex h.2.2), if_neg]
          intro h
          rcases hcons.mp h.2.2 with h' | h'
          · exact hx h'
          · exact hex h'
    · have hset : (if (info x.1).fixed = true then J
            else setBlock J row (c x.1) n (info x.1).size x.2) a b = J a b := by
        by_cases hf : (info x.1).fixed = true
        · rw [if_pos hf]
        · rw [if_neg hf, setBlock, if_neg]
          intro h; exact hr ⟨h.1, h.2.1⟩
      rw [hset, if_neg (fun h => hr ⟨h.1, h.2.1⟩), if_neg (fun h => hr ⟨h.1, h.2.1⟩)]

/-- Blocks of a residual are over distinct parameters with disjoint columns. -/
def GoodRes (info : P → ParamInfo) (c : P → Nat) (f : Res K P) : Prop :=
  (f.blocks.map Prod.fst).Nodup ∧
  ∀ a, ∀ x ∈ f.blocks, ∀ y ∈ f.blocks, (info x.1).fixed = false → (info y.1).fixed = false →
    InCol info c x.1 a → InCol info c y.1 a → x.1 = y.1

theorem jacAll_eq (info : P → ParamInfo) (c : P → Nat) (fs : List (Res K P))
    (hg : ∀ f ∈ fs, GoodRes info c f) (row : Nat) (J : Mat K) (r : Nat → K)
    (hJ : ∀ a b, row ≤ a → J a b = 0) (hr : ∀ a, row ≤ a → r a = 0) :
    (∀ a b, (jacAll info c row J r fs).1 a b =
      if row ≤ a then stackJ info c fs (a - row) b else J a b) ∧
    (∀ a, (jacAll info c row J r fs).2 a = if row ≤ a then stackR fs (a - row) else r a) := by
  induction fs generalizing row J r with
  | nil =>
    constructor
    · intro a b; simp only [jacAll, stackJ]; split_ifs with h
      · exact hJ a b h
      · rfl
    · intro a; simp only [jacAll, stackR]; split_ifs with h
      · exact hr a h
      · rfl
  | cons f fs ih =>
    obtain ⟨gn, gd⟩ := hg f (by simp)
    have hjac : ∀ a b, jacRes info c row f.size J f.blocks a b =
        if row ≤ a ∧ a < row + f.size then rowG info c f.blocks (a - row) b else J a b := by
      intro a b
      rw [jacRes_eq info c row f.size f.blocks J a b gn (gd b)]
      by_cases hra : row ≤ a ∧ a < row + f.size
      · rw [if_pos hra]
        by_cases hex : ∃ x ∈ f.blocks, (info x.1).fixed = false ∧ InCol info c x.1 b
        · rw [if_pos ⟨hra.1, hra.2, hex⟩]
        · rw [if_neg (fun h => hex h.2.2), rowG_zero, hJ a b hra.1]
          intro x hx hxf hxc; exact hex ⟨x, hx, hxf, hxc⟩
      · rw [if_neg (fun h => hra ⟨h.1, h.2.1⟩), if_neg hra]
    obtain ⟨i1, i2⟩ := ih (fun g hg' => hg g (by simp [hg'])) (row + f.size)
      (jacRes info c row f.size J f.blocks)
      (fun a => if row ≤ a ∧ a < row + f.size then f.r (a - row) else r a)
      (by intro a b h; rw [hjac, if_neg (by omega)]; exact hJ a b (by omega))
      (by intro a h; rw [if_neg (by omega)]; exact hr a (by omega))
    rw [jacAll]
    constructor
    · intro a b
      rw [i1, hjac, stackJ]
      by_cases h1 : row + f.size ≤ a
      · rw [if_pos h1, if_pos (by omega), if_neg (by omega)]; congr 1; omega
      · rw [if_neg h1]
        by_cases h2 : row ≤ a
        · rw [if_pos ⟨h2, by omega⟩, if_pos h2, if_pos (by omega)]
        · rw [if_neg (by omega), if_neg h2]
    · intro a
      rw [i2, stackR]
      by_cases h1 : row + f.size ≤ a
      · rw [if_pos h1, if_pos (by omega), if_neg (by omega)]; congr 1; omega
      · rw [if_neg h1]
        by_cases h2 : row ≤ a
        · rw [if_pos ⟨h2, by omega⟩, if_pos h2, if_pos (by omega)]
        · rw [if_neg (by omega), if_neg h2]

theorem stackJ_at (info : P → ParamInfo) (c : P → Nat) (pre post : List (Res K P)) (f : Res K P)
    (k a : Nat) (hk : k < f.size) :
    stackJ info c (pre ++ f :: post) (resLen pre + k) a = rowG info c f.blocks k a := by
  induction pre with
  | nil => simp [stackJ, resLen, hk]
  | cons g pre ih =>
    simp only [List.cons_append, stackJ, resLen]
    rw [if_neg (by omega), ← ih]; congr 1; omega

theorem stackR_at (pre post : List (Res K P)) (f : Res K P) (k : Nat) (hk : k < f.size) :
    stackR (pre ++ f :: post) (resLen pre + k) = f.r k := by
  induction pre with
  | nil => simp [stackR, resLen, hk]
  | cons g pre ih =>
    simp only [List.cons_append, stackR, resLen]
    rw [if_neg (by omega), ← ih]; congr 1; omega

end Yac.Solver
