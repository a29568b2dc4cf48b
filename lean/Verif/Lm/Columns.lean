import Verif.Lm.Linear
import Verif.Solver.CovLemmas

/-! # Columns and parameters -/

namespace Yac.Lm
open Finset
open Yac.Solver

variable {P V : Type} [DecidableEq P]

/-- The evaluated residuals. -/
def results (pb : Setup P V) (σ : Vals P V) : List (Res ℝ P) := pb.fns.map (fun g => g.result σ ((g.eval σ).getD 0))

theorem evalAll_ok (fns : List (RFn P V)) (σ : Vals P V) (h : ∀ g ∈ fns, ∃ r, g.eval σ = some r) :
    evalAll fns σ = .ok (fns.map (fun g => g.result σ ((g.eval σ).getD 0))) := by
  unfold evalAll
  induction fns with
  | nil => rfl
  | cons g fns ih =>
    obtain ⟨r, hr⟩ := h g List.mem_cons_self
    rw [List.mapM_cons, ih (fun x hx => h x (List.mem_cons_of_mem _ hx))]
    unfold evalOne
    simp only [hr]
    rw [List.map_cons, hr]
    rfl

/-- What an iteration knows about the problem. -/
structure Assembled (pb : Setup P V) (S : Finset P) (σ : Vals P V) (order : List (P × ℕ)) (n : ℕ) (H : Mat ℝ) (b : ℕ → ℝ)
    (c : P → ℕ) : Prop where
  form : formHessian pb.info (results pb σ) = .ok (order, n, H, b)
  dim : n = dim pb S
  sum : ∀ g : ℕ → ℝ, ∑ a ∈ range n, g a = ∑ p ∈ S, ∑ i ∈ range (pb.info p).size, g (c p + i)
  lt : ∀ p ∈ S, ∀ i < (pb.info p).size, c p + i < n
  split : ∀ a < n, ∃ p ∈ S, ∃ i < (pb.info p).size, a = c p + i
  psd : ∀ v : ℕ → ℝ, 0 ≤ ∑ a ∈ range n, v a * ∑ b ∈ range n, H a b * v b
  diag : ∀ a < n, 0 ≤ H a a
  rhs : ∀ p ∈ S, ∀ i < (pb.info p).size, b (c p + i) = -gradient pb σ p i
  entry : ∀ p ∈ S, ∀ i < (pb.info p).size, ∀ q ∈ S, ∀ j < (pb.info q).size,
    H (c p + i) (c q + j) = infoEntry (results pb σ) p i q j
  ord : evalOrder pb.info (pb.fns.map (fun g => g.blocks)) = .ok (order, n)
  cols : c = col order
  gram : ∀ a b, H a b = ∑ k ∈ range (resLen (results pb σ)), stackJ pb.info c (results pb σ) k a * stackJ pb.info c (results pb σ) k b
  lift : ∀ e : P → ℕ → ℝ, ∃ v : ℕ → ℝ, ∀ p ∈ S, ∀ i < (pb.info p).size, v (c p + i) = e p i
  upd : ∀ dx : ℕ → ℝ, update pb.info pb.plus order dx σ = moved pb S σ (fun p i => dx (c p + i))

theorem results_blocks (pb : Setup P V) (σ : Vals P V) (f : Res ℝ P) (hf : f ∈ results pb σ) :
    ∃ g ∈ pb.fns, f.blocks.map Prod.fst = g.blocks := by
  obtain ⟨g, hg, rfl⟩ := List.mem_map.mp hf
  refine ⟨g, hg, ?_⟩
  unfold RFn.result
  rw [List.map_map]
  exact List.map_id _

theorem results_opt {pb : Setup P V} {S : Finset P} (h : Problem pb S) (σ : Vals P V) (p : P) :
    Optimised pb.info (results pb σ) p ↔ p ∈ S := by
  rw [h.free]
  unfold Optimised Free
  refine and_congr_right (fun _ => ⟨?_, ?_⟩)
  · rintro ⟨f, hf, hp⟩
    obtain ⟨g, hg, e⟩ := results_blocks pb σ f hf
    exact ⟨g, hg, e ▸ hp⟩
  · rintro ⟨g, hg, hp⟩
    exact ⟨_, List.mem_map_of_mem hg, by simpa [RFn.result] using hp⟩

omit [DecidableEq P] in
theorem sum_stackR (info : P → ParamInfo) (c : P → ℕ) (fs : List (Res ℝ P)) (a : ℕ) :
    ∑ k ∈ range (resLen fs), stackJ info c fs k a * stackR fs k =
      (fs.map (fun f => ∑ k ∈ range f.size, rowG info c f.blocks k a * f.r k)).sum := by
  induction fs with
  | nil => simp [resLen]
  | cons f fs ih =>
    rw [resLen, sum_range_add, List.map_cons, List.sum_cons, ← ih]
    congr 1
    · apply sum_congr rfl
      intro k hk
      simp [stackJ, stackR, mem_range.mp hk]
    · apply sum_congr rfl
      intro k _
      simp [stackJ, stackR]

theorem assemble {pb : Setup P V} {S : Finset P} (h : Problem pb S) (σ : Vals P V)
    (he : ∀ g ∈ pb.fns, ∃ r, g.eval σ = some r) : ∃ order n H b c, Assembled pb S σ order n H b c := by
  have hw : WellFormed pb.info (results pb σ) := by
    refine ⟨fun p hp => h.kind p ((results_opt h σ p).mp hp), fun f hf => ?_⟩
    obtain ⟨g, hg, e⟩ := results_blocks pb σ f hf
    rw [e]; exact h.nodup g hg
  obtain ⟨p0, hp0, hk0⟩ := h.camera
  obtain ⟨o, n, ho⟩ := (evalOrder_isOk pb.info ((results pb σ).map (fun f => f.blocks.map Prod.fst))).mpr (by
    obtain ⟨hf, f, hff, hpf⟩ := (results_opt h σ p0).mpr hp0
    exact ⟨_, List.mem_map_of_mem hff, p0, hpf, hf, hk0⟩)
  obtain ⟨h1, h2, h3, h4, h5, h6⟩ := order_facts hw ho
  obtain ⟨e1, e2⟩ := evalOrder_ok ho
  have hS : ((track pb.info ((results pb σ).map (fun f => f.blocks.map Prod.fst))).all).toFinset = S := by
    ext p
    rw [List.mem_toFinset, ← results_opt h σ p, ← h1, e1, assign_keys]
  have hlen : n = totalSize pb.info (track pb.info ((results pb σ).map (fun f => f.blocks.map Prod.fst))).all := by
    rw [e2]
    refine (track_inv pb.info _).len (fun p hp hf => hw.1 p ⟨hf, (mem_blocks_flatten _ p).mp hp⟩)
  have hsum : ∀ g : ℕ → ℝ, ∑ a ∈ range n, g a = ∑ p ∈ S, ∑ i ∈ range (pb.info p).size, g (col o p + i) := by
    intro g
    have := sum_layout pb.info (track pb.info ((results pb σ).map (fun f => f.blocks.map Prod.fst))).all
      (track_all_nodup _ _) 0 g
    rw [← hlen, hS, ← e1] at this
    simpa only [Nat.zero_add] using this
  obtain ⟨k1, k2⟩ := hess_all pb.info (col o) (results pb σ) (fun _ _ => 0) (fun _ => 0)
  have hform : formHessian pb.info (results pb σ) = .ok (o, n,
      ((results pb σ).foldl (fun (Hb : Mat ℝ × (ℕ → ℝ)) f => hessBlocks pb.info (col o) f.size f.r Hb.1 Hb.2 f.blocks)
        (fun _ _ => 0, fun _ => 0)).1,
      ((results pb σ).foldl (fun (Hb : Mat ℝ × (ℕ → ℝ)) f => hessBlocks pb.info (col o) f.size f.r Hb.1 Hb.2 f.blocks)
        (fun _ _ => 0, fun _ => 0)).2) := by
    unfold formHessian
    rw [ho]
    simp only [bind, Except.bind, pure, Except.pure, h6]
  generalize ((results pb σ).foldl (fun (Hb : Mat ℝ × (ℕ → ℝ)) f =>
    hessBlocks pb.info (col o) f.size f.r Hb.1 Hb.2 f.blocks) (fun _ _ => 0, fun _ => 0)) = Hb at k1 k2 hform
  have hrow : ∀ f ∈ results pb σ, ∀ p ∈ S, ∀ i < (pb.info p).size, ∀ k,
      rowG pb.info (col o) f.blocks k (col o p + i) = deriv f p k i := by
    intro f hf p hp i hi k
    refine rowG_deriv pb.info (col o) S f.blocks ?_ ?_ p hp ((results_opt h σ p).mpr hp).1 k i hi
    · intro x hx hxf
      exact (results_opt h σ x.1).mp ⟨hxf, f, hf, List.mem_map_of_mem hx⟩
    · intro p hp q hq a ha hb
      exact h5 p q a ((results_opt h σ p).mpr hp) ((results_opt h σ q).mpr hq) ha hb
  refine ⟨o, n, Hb.1, Hb.2, col o, hform, ?_, hsum, ?_, ?_, ?_, ?_, ?_, ?_, ?_, rfl, ?_, ?_, ?_⟩
  · have := hsum (fun _ => 1)
    simp only [Finset.sum_const, card_range, nsmul_eq_mul, mul_one] at this
    unfold Lm.dim
    exact_mod_cast this
  · intro p hp i hi
    have := h3 p ((results_opt h σ p).mpr hp)
    omega
  · intro a ha
    obtain ⟨p, hp, hc1, hc2⟩ := h4 a ha
    exact ⟨p, (results_opt h σ p).mp hp, a - col o p, by omega, by omega⟩
  · intro v
    have : ∑ a ∈ range n, v a * ∑ b ∈ range n, Hb.1 a b * v b =
        ∑ k ∈ range (resLen (results pb σ)), (∑ a ∈ range n, stackJ pb.info (col o) (results pb σ) k a * v a) ^ 2 := by
      simp only [k1, zero_add, pow_two, Finset.mul_sum, Finset.sum_mul]
      rw [Finset.sum_congr rfl (fun a _ => Finset.sum_comm), Finset.sum_comm]
      refine Finset.sum_congr rfl (fun k _ => Finset.sum_congr rfl (fun a _ => Finset.sum_congr rfl (fun b _ => ?_)))
      ring
    rw [this]
    exact Finset.sum_nonneg (fun _ _ => sq_nonneg _)
  · intro a _
    rw [k1, zero_add]
    exact Finset.sum_nonneg (fun _ _ => mul_self_nonneg _)
  · intro p hp i hi
    rw [k2, zero_sub, sum_stackR]
    unfold gradient results
    rw [List.map_map]
    congr 2
    apply List.map_congr_left
    intro g hg
    obtain ⟨r, hr⟩ := he g hg
    simp only [Function.comp, hr, Option.getD_some]
    refine Finset.sum_congr rfl (fun k _ => ?_)
    rw [hrow (g.result σ r) (by unfold results; exact List.mem_map.mpr ⟨g, hg, by rw [hr]; rfl⟩) p hp i hi]
    rfl
  · intro p hp i hi q hq j hj
    rw [k1, zero_add, sum_stackJ, infoEntry]
    congr 1
    apply List.map_congr_left
    intro f hf
    refine Finset.sum_congr rfl (fun k _ => ?_)
    rw [hrow f hf p hp i hi, hrow f hf q hq j hj]
  · rw [← ho]
    congr 1
    unfold results
    rw [List.map_map]
    apply List.map_congr_left
    intro g _
    simp only [Function.comp, RFn.result, List.map_map]
    exact (List.map_id _).symm
  · intro a b
    rw [k1, zero_add]
  · intro e
    classical
    refine ⟨fun a => if hx : ∃ p ∈ S, InCol pb.info (col o) p a then e hx.choose (a - col o hx.choose) else 0, ?_⟩
    intro p hp i hi
    have hx : ∃ q ∈ S, InCol pb.info (col o) q (col o p + i) := ⟨p, hp, by unfold InCol; omega⟩
    beta_reduce
    rw [dif_pos hx]
    have : hx.choose = p := h5 _ _ _ ((results_opt h σ _).mpr hx.choose_spec.1) ((results_opt h σ p).mpr hp) hx.choose_spec.2
      (by unfold InCol; omega)
    rw [this, Nat.add_sub_cancel_left]
  · intro dx
    funext p
    obtain ⟨u1, u2⟩ := C49_update pb.info (results pb σ) hw o n _ _ hform pb.plus dx σ p
    unfold moved
    by_cases hp : p ∈ S
    · rw [if_pos hp, u1 ((results_opt h σ p).mpr hp)]
    · rw [if_neg hp, u2 (fun hc => hp ((results_opt h σ p).mp hc))]

end Yac.Lm
