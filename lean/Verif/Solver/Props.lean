import Verif.Solver.BookLemmas
import Verif.Solver.NormalLemmas
import Mathlib.Algebra.Order.Field.Basic
import Mathlib.Data.Rat.Cast.Order
import Mathlib.Tactic.NormNum

/-!
Properties C46-C49: solver bookkeeping, the Levenberg-Marquardt and Gauss-Newton loops and
the normal equations.
-/

namespace Yac.Solver

/-! ## C46 -/

section book
variable {P R : Type} [DecidableEq P] [DecidableEq R]

/-- C46, `ceres_solver_t`: after every legal history (no `clear`) no call aborted, and the
problem holds exactly the parameters and residuals of the specification: a residual is
present iff it was added and neither it nor one of its parameters was removed since. -/
theorem C46_ceres_bookkeeping (blocks : R → List P) (ops : List (Op P R))
    (hl : Spec.LegalFrom blocks ⟨∅, ∅⟩ ops) (hc : ∀ op ∈ ops, op ≠ .clear) :
    ∃ s, CBook.run blocks ops = .ok s ∧
      s.numResiduals = (Spec.run blocks ops).residuals.card ∧
      s.numParams = (Spec.run blocks ops).params.card ∧
      (∀ p, s.hasParam p = decide (p ∈ (Spec.run blocks ops).params)) ∧
      (∀ r, r ∈ s.base.resFns ↔ r ∈ (Spec.run blocks ops).residuals) ∧
      (∀ r, r ∈ s.prob.rblocks.map Prod.snd ↔ r ∈ (Spec.run blocks ops).residuals) := by
  have main : ∀ (ops : List (Op P R)) (s : CBook P R) (q : Spec.Prob P R),
      CInv blocks s q.params q.residuals → Spec.LegalFrom blocks q ops →
      (∀ op ∈ ops, op ≠ .clear) →
      ∃ s', ops.foldlM (CBook.step blocks) s = .ok s' ∧
        CInv blocks s' (ops.foldl (Spec.step blocks) q).params
          (ops.foldl (Spec.step blocks) q).residuals := by
    intro ops
    induction ops with
    | nil => intro s q h _ _; exact ⟨s, rfl, h⟩
    | cons op ops ih =>
      intro s q h hl hc
      obtain ⟨hop, hl'⟩ := hl
      have key : ∃ s1, CBook.step blocks s op = .ok s1 ∧
          CInv blocks s1 (Spec.step blocks q op).params (Spec.step blocks q op).residuals := by
        cases op with
        | addParam p => exact ⟨_, rfl, h.addParam p⟩
        | addResidual r => exact h.addResidual r hop.1 hop.2.1 hop.2.2
        | removeParam p => exact h.removeParam p hop
        | removeResidual r =>
          obtain ⟨s1, h1, h2, _⟩ := h.removeResidual r hop; exact ⟨s1, h1, h2⟩
        | clear => exact absurd rfl (hc .clear (by simp))
      obtain ⟨s1, h1, h2⟩ := key
      obtain ⟨s2, h3, h4⟩ := ih s1 _ h2 hl' (fun o ho => hc o (by simp [ho]))
      exact ⟨s2, by rw [List.foldlM_cons, h1]; exact h3, h4⟩
  obtain ⟨s, h1, h2⟩ := main ops CBook.empty ⟨∅, ∅⟩ CInv.empty hl hc
  exact ⟨s, h1, h2.numResiduals, h2.numParams, h2.hasParam, h2.base.rmem, h2.rmem⟩

/-- C46, `ceres_solver_t`: calls that are not legal for the current problem abort, and never
change the problem silently (adding a residual twice or over repeated parameters, removing
what is not there). -/
theorem C46_ceres_rejects (blocks : R → List P) (ops : List (Op P R))
    (hl : Spec.LegalFrom blocks ⟨∅, ∅⟩ ops) (hc : ∀ op ∈ ops, op ≠ .clear) (s : CBook P R)
    (hs : CBook.run blocks ops = .ok s) :
    (∀ r, r ∈ (Spec.run blocks ops).residuals ∨ ¬ (blocks r).Nodup →
      s.addResidual blocks r = .error .fatal) ∧
    (∀ r, r ∉ (Spec.run blocks ops).residuals → s.removeResidual blocks r = .error .fatal) := by
  obtain ⟨s', h1, _, _, _, h5, _⟩ := C46_ceres_bookkeeping blocks ops hl hc
  rw [hs] at h1; cases h1
  refine ⟨?_, ?_⟩
  · intro r hr
    unfold CBook.addResidual Book.addResidual
    by_cases hm : r ∈ s.base.resFns
    · rw [if_pos hm]; rfl
    · rw [if_neg hm]
      rcases hr with hr | hr
      · exact absurd ((h5 r).mpr hr) hm
      · simp only [bind, Except.bind, hr, if_false]
  · intro r hr
    rw [CBook.removeResidual, if_neg]
    rw [h5]; exact hr

/-- C46 for `yac_solver_t`, partial: the same, provided a parameter is only removed when the
residuals present that use it use no other parameter.  Missing: removing a parameter shared
with others, see `C46_base_shared_refuted`. -/
theorem C46_base_bookkeeping_partial (blocks : R → List P) (ops : List (Op P R))
    (hl : Spec.LegalFrom blocks ⟨∅, ∅⟩ ops) (hp : Spec.PrivateFrom blocks ⟨∅, ∅⟩ ops) :
    ∃ s, Book.run blocks ops = .ok s ∧
      s.numResiduals = (Spec.run blocks ops).residuals.card ∧
      s.numParams = (Spec.run blocks ops).params.card ∧
      (∀ p, s.hasParam p = decide (p ∈ (Spec.run blocks ops).params)) ∧
      (∀ r, r ∈ s.resFns ↔ r ∈ (Spec.run blocks ops).residuals) ∧
      (∀ p r, r ∈ (s.param2res p).getD [] ↔ r ∈ (Spec.run blocks ops).residuals ∧ p ∈ blocks r) ∧
      (∀ r p, p ∈ (s.res2param r).getD [] ↔ r ∈ (Spec.run blocks ops).residuals ∧ p ∈ blocks r) := by
  have main : ∀ (ops : List (Op P R)) (s : Book P R) (q : Spec.Prob P R),
      Inv blocks s q.params q.residuals → Spec.LegalFrom blocks q ops →
      Spec.PrivateFrom blocks q ops →
      ∃ s', ops.foldlM (Book.step blocks) s = .ok s' ∧
        Inv blocks s' (ops.foldl (Spec.step blocks) q).params
          (ops.foldl (Spec.step blocks) q).residuals := by
    intro ops
    induction ops with
    | nil => intro s q h _ _; exact ⟨s, rfl, h⟩
    | cons op ops ih =>
      intro s q h hl hp
      obtain ⟨hop, hl'⟩ := hl
      obtain ⟨hpr, hp'⟩ := hp
      have key : ∃ s1, Book.step blocks s op = .ok s1 ∧
          Inv blocks s1 (Spec.step blocks q op).params (Spec.step blocks q op).residuals := by
        cases op with
        | addParam p => exact ⟨_, rfl, h.addParam p⟩
        | addResidual r => exact h.addResidual r hop.1
        | removeParam p => exact h.removeParam p hop hpr
        | removeResidual r => exact h.removeResidual r hop
        | clear => exact ⟨_, rfl, Inv.empty⟩
      obtain ⟨s1, h1, h2⟩ := key
      obtain ⟨s2, h3, h4⟩ := ih s1 _ h2 hl' hp'
      exact ⟨s2, by rw [List.foldlM_cons, h1]; exact h3, h4⟩
  obtain ⟨s, h1, h2⟩ := main ops Book.empty ⟨∅, ∅⟩ Inv.empty hl hp
  exact ⟨s, h1, h2.numResiduals, h2.numParams, h2.hasParam, h2.rmem, h2.p2r, h2.r2p⟩

/-- C46 fails for `yac_solver_t`: with a residual over two parameters, removing both
parameters one after the other is legal but the second call aborts. -/
theorem C46_base_shared_refuted :
    let blocks : Nat → List Nat := fun _ => [1, 2]
    let ops : List (Op Nat Nat) :=
      [.addParam 1, .addParam 2, .addResidual 7, .removeParam 1, .removeParam 2]
    Spec.LegalFrom blocks ⟨∅, ∅⟩ ops ∧ (Book.run blocks ops).toOption.isNone ∧
    (CBook.run blocks ops).toOption.isSome := by
  refine ⟨?_, by decide, by decide⟩
  simp [Spec.LegalFrom, Spec.Legal, Spec.step]

/-- `clear` is not virtual: on a `ceres_solver_t` it empties the base bookkeeping but the
`ceres::Problem` keeps its residuals, so `num_residuals` is unchanged. -/
theorem C46_ceres_clear_refuted (blocks : R → List P) (s : CBook P R) :
    ∃ s', CBook.step blocks s .clear = .ok s' ∧ s'.numResiduals = s.numResiduals ∧
      s'.numParams = s.numParams ∧ s'.base.resFns = [] :=
  ⟨_, rfl, rfl, rfl, rfl⟩

/-- C46 witness: a legal history with shared parameters, removals and re-adds. -/
example : Spec.LegalFrom (fun r : Nat => if r = 1 then [1, 2] else [2, 3]) ⟨∅, ∅⟩
    [.addParam 1, .addParam 2, .addParam 3, .addResidual 1, .addResidual 2, .removeParam 1,
     .removeResidual 2, .addResidual 2] := by
  simp [Spec.LegalFrom, Spec.Legal, Spec.step]

example : Spec.PrivateFrom (fun r : Nat => if r = 1 then [1, 2] else [2]) ⟨∅, ∅⟩
    [.addParam 1, .addParam 2, .addResidual 1, .addResidual 2, .removeResidual 1,
     .removeParam 1, .removeParam 2] := by
  simp [Spec.PrivateFrom, Spec.step]
  constructor
  · intro r h1 _; simp [h1]
  · intro r h1 _; simp [h1]

end book

/-! ## C49 -/

section normal
variable {K P : Type} [DecidableEq P] [CommRing K]

/-- The parameters of a residual list that are optimised. -/
def Optimised (info : P → ParamInfo) (fs : List (Res K P)) (p : P) : Prop :=
  (info p).fixed = false ∧ ∃ f ∈ fs, p ∈ f.blocks.map Prod.fst

/-- A well-formed problem: every optimised parameter is of one of the five types known to
the solver and no residual lists a parameter twice. -/
def WellFormed (info : P → ParamInfo) (fs : List (Res K P)) : Prop :=
  (∀ p, Optimised info fs p → (info p).kind ≠ .other) ∧
  ∀ f ∈ fs, (f.blocks.map Prod.fst).Nodup

theorem mem_blocks_flatten (fs : List (Res K P)) (p : P) :
    p ∈ (fs.map (fun f => f.blocks.map Prod.fst)).flatten ↔ ∃ f ∈ fs, p ∈ f.blocks.map Prod.fst := by
  simp [List.mem_flatten]

theorem flatMap_eq (fs : List (Res K P)) :
    fs.flatMap (fun f => f.blocks.map Prod.fst) =
      (fs.map (fun f => f.blocks.map Prod.fst)).flatten := by
  rw [List.flatMap_def]

/-- What `evalOrder` gives for a well-formed problem. -/
theorem order_facts {info : P → ParamInfo} {fs : List (Res K P)} (hw : WellFormed info fs)
    {o : List (P × Nat)} {n : Nat}
    (h : evalOrder info (fs.map (fun f => f.blocks.map Prod.fst)) = .ok (o, n)) :
    (∀ p, p ∈ o.map Prod.fst ↔ Optimised info fs p) ∧ (o.map Prod.fst).Nodup ∧
    (∀ p, Optimised info fs p → col o p + (info p).size ≤ n) ∧
    (∀ a, a < n → ∃ p, Optimised info fs p ∧ InCol info (col o) p a) ∧
    (∀ p q a, Optimised info fs p → Optimised info fs q → InCol info (col o) p a →
      InCol info (col o) q a → p = q) ∧
    touchAll info o (fs.flatMap (fun f => f.blocks.map Prod.fst)) = o := by
  obtain ⟨ho, hn⟩ := evalOrder_ok h
  have hmem : ∀ p, p ∈ (track info (fs.map (fun f => f.blocks.map Prod.fst))).all ↔
      Optimised info fs p := by
    intro p
    rw [track_all_mem, mem_blocks_flatten]
    constructor
    · rintro ⟨a, b, _⟩; exact ⟨b, a⟩
    · intro hp; exact ⟨hp.2, hp.1, hw.1 p hp⟩
  have hlen := (track_inv info (fs.map (fun f => f.blocks.map Prod.fst))).len (by
    intro p hp hf; exact hw.1 p ⟨hf, (mem_blocks_flatten fs p).mp hp⟩)
  have hnd := track_all_nodup info (fs.map (fun f => f.blocks.map Prod.fst))
  have hkeys : o.map Prod.fst = (track info (fs.map (fun f => f.blocks.map Prod.fst))).all := by
    rw [ho, assign_keys]
  refine ⟨?_, ?_, ?_, ?_, ?_, ?_⟩
  · intro p; rw [hkeys]; exact hmem p
  · rw [hkeys]; exact hnd
  · intro p hp
    have := (assign_bounds info _ 0 p ((hmem p).mpr hp)).2
    rw [← ho, ← hlen, ← hn] at this; omega
  · intro a ha
    obtain ⟨p, hp, hc⟩ := assign_cover info _ hnd 0 a (Nat.zero_le _)
      (by rw [← hlen, ← hn]; omega)
    exact ⟨p, (hmem p).mp hp, by rw [ho]; exact hc⟩
  · intro p q a hp hq h1 h2
    rw [ho] at h1 h2
    exact assign_disjoint info _ 0 a p q ((hmem p).mpr hp) ((hmem q).mpr hq) h1 h2
  · apply touchAll_eq
    intro p hp hf
    rw [flatMap_eq, mem_blocks_flatten] at hp
    rw [hkeys, hmem]; exact ⟨hf, hp⟩

/-- C49: the optimised parameters occupy pairwise disjoint column ranges that cover the
matrix exactly; fixed parameters get no column. -/
theorem C49_columns (info : P → ParamInfo) (fs : List (Res K P)) (hw : WellFormed info fs)
    (order : List (P × Nat)) (n : Nat) (H : Mat K) (b : Nat → K)
    (h : formHessian info fs = .ok (order, n, H, b)) :
    (∀ p, p ∈ order.map Prod.fst ↔ Optimised info fs p) ∧
    (∀ p, Optimised info fs p → col order p + (info p).size ≤ n) ∧
    (∀ a, a < n → ∃! p, Optimised info fs p ∧ col order p ≤ a ∧ a < col order p + (info p).size) := by
  unfold formHessian at h
  cases he : evalOrder info (fs.map (fun f => f.blocks.map Prod.fst)) with
  | error e => rw [he] at h; cases h
  | ok on =>
    obtain ⟨o, m⟩ := on
    rw [he] at h
    obtain ⟨h1, h2, h3, h4, h5, h6⟩ := order_facts hw he
    simp only [bind, Except.bind, pure, Except.pure, h6, Except.ok.injEq, Prod.mk.injEq] at h
    obtain ⟨rfl, rfl, _, _⟩ := h
    refine ⟨h1, h3, ?_⟩
    intro a ha
    obtain ⟨p, hp, hc⟩ := h4 a ha
    exact ⟨p, ⟨hp, hc⟩, fun q hq => h5 q p a hq.1 hp hq.2 hc⟩

/-- C49: the assembled Hessian is `JᵀJ` and the right-hand side is `-Jᵀr` for the stacked
Jacobian and residual formed by the same solver; both use the same columns. -/
theorem C49_normal_equations (info : P → ParamInfo) (fs : List (Res K P)) (hw : WellFormed info fs)
    (order : List (P × Nat)) (n : Nat) (H : Mat K) (b : Nat → K)
    (h : formHessian info fs = .ok (order, n, H, b)) :
    ∃ J r, formJacobian info fs = .ok (order, n, J, r) ∧
      (∀ i j, H i j = ∑ k ∈ Finset.range (resLen fs), J k i * J k j) ∧
      (∀ i, b i = - ∑ k ∈ Finset.range (resLen fs), J k i * r k) := by
  unfold formHessian at h
  unfold formJacobian
  cases he : evalOrder info (fs.map (fun f => f.blocks.map Prod.fst)) with
  | error e => rw [he] at h; cases h
  | ok on =>
    obtain ⟨o, m⟩ := on
    rw [he] at h
    obtain ⟨h1, h2, h3, h4, h5, h6⟩ := order_facts hw he
    simp only [bind, Except.bind, pure, Except.pure, h6, Except.ok.injEq, Prod.mk.injEq] at h ⊢
    obtain ⟨rfl, rfl, hH, hb⟩ := h
    obtain ⟨e1, e2⟩ := hess_all info (col o) fs (fun _ _ => 0) (fun _ => 0)
    obtain ⟨j1, j2⟩ := jacAll_eq info (col o) fs (by
      intro f hf
      refine ⟨hw.2 f hf, ?_⟩
      intro a x hx y hy hxf hyf hxc hyc
      exact h5 x.1 y.1 a ⟨hxf, f, hf, List.mem_map.mpr ⟨x, hx, rfl⟩⟩
        ⟨hyf, f, hf, List.mem_map.mpr ⟨y, hy, rfl⟩⟩ hxc hyc) 0 (fun _ _ => 0) (fun _ => 0)
        (fun _ _ _ => rfl) (fun _ _ => rfl)
    refine ⟨_, _, ⟨rfl, rfl, rfl, rfl⟩, ?_, ?_⟩
    · intro i j
      rw [← hH, e1, zero_add]
      apply Finset.sum_congr rfl
      intro k _
      rw [j1, j1]; simp
    · intro i
      rw [← hb, e2, zero_sub]
      congr 1
      apply Finset.sum_congr rfl
      intro k _
      rw [j1, j2]; simp

/-- C49: layout of `J` and `r`.  The rows of residual `f` start after the rows of the
residuals before it; there, the columns of each optimised parameter of `f` hold that
block's Jacobian, all other columns are zero, and `r` holds the residual value. -/
theorem C49_jacobian_layout (info : P → ParamInfo) (pre post : List (Res K P)) (f : Res K P)
    (hw : WellFormed info (pre ++ f :: post))
    (order : List (P × Nat)) (n : Nat) (J : Mat K) (r : Nat → K)
    (h : formJacobian info (pre ++ f :: post) = .ok (order, n, J, r)) (k : Nat) (hk : k < f.size) :
    r (resLen pre + k) = f.r k ∧
    (∀ p B, (p, B) ∈ f.blocks → (info p).fixed = false → ∀ i, i < (info p).size →
      J (resLen pre + k) (col order p + i) = B k i) ∧
    (∀ p, Optimised info (pre ++ f :: post) p → p ∉ f.blocks.map Prod.fst →
      ∀ i, i < (info p).size → J (resLen pre + k) (col order p + i) = 0) := by
  unfold formJacobian at h
  cases he : evalOrder info ((pre ++ f :: post).map (fun f => f.blocks.map Prod.fst)) with
  | error e => rw [he] at h; cases h
  | ok on =>
    obtain ⟨o, m⟩ := on
    rw [he] at h
    obtain ⟨h1, h2, h3, h4, h5, h6⟩ := order_facts hw he
    simp only [bind, Except.bind, pure, Except.pure, h6, Except.ok.injEq, Prod.mk.injEq] at h
    obtain ⟨rfl, rfl, hJ, hr⟩ := h
    have good : ∀ g ∈ pre ++ f :: post, GoodRes info (col o) g := by
      intro g hg
      refine ⟨hw.2 g hg, ?_⟩
      intro a x hx y hy hxf hyf hxc hyc
      exact h5 x.1 y.1 a ⟨hxf, g, hg, List.mem_map.mpr ⟨x, hx, rfl⟩⟩
        ⟨hyf, g, hg, List.mem_map.mpr ⟨y, hy, rfl⟩⟩ hxc hyc
    obtain ⟨j1, j2⟩ := jacAll_eq info (col o) _ good 0 (fun _ _ => 0) (fun _ => 0)
        (fun _ _ _ => rfl) (fun _ _ => rfl)
    have hf : f ∈ pre ++ f :: post := by simp
    refine ⟨?_, ?_, ?_⟩
    · rw [← hr, j2]
      simp only [Nat.zero_le, if_true, Nat.sub_zero]
      exact stackR_at pre post f k hk
    · intro p B hpB hpf i hi
      rw [← hJ, j1]
      simp only [Nat.zero_le, if_true, Nat.sub_zero]
      rw [stackJ_at _ _ _ _ _ _ _ hk, rowG_single info (col o) f.blocks k _ (good f hf).1
        ((good f hf).2 _) (p, B) hpB hpf ⟨by simp, by simp only; omega⟩]
      simp
    · intro p hp hno i hi
      rw [← hJ, j1]
      simp only [Nat.zero_le, if_true, Nat.sub_zero]
      rw [stackJ_at _ _ _ _ _ _ _ hk, rowG_zero]
      intro b hb hbf hbc
      have hbo : Optimised info (pre ++ f :: post) b.1 :=
        ⟨hbf, f, hf, List.mem_map.mpr ⟨b, hb, rfl⟩⟩
      have := h5 b.1 p _ hbo hp hbc ⟨by simp, by omega⟩
      exact hno (List.mem_map.mpr ⟨b, hb, this⟩)

/-- C49: the update adds to each optimised parameter exactly its own segment of `dx` and
changes nothing else. -/
theorem C49_update {V : Type} (info : P → ParamInfo) (fs : List (Res K P)) (hw : WellFormed info fs)
    (order : List (P × Nat)) (n : Nat) (H : Mat K) (b : Nat → K)
    (h : formHessian info fs = .ok (order, n, H, b))
    (plus : P → V → List K → V) (dx : Nat → K) (σ : P → V) (p : P) :
    (Optimised info fs p → update info plus order dx σ p =
      plus p (σ p) ((List.range (info p).size).map (fun (i : Nat) => dx (col order p + i)))) ∧
    (¬ Optimised info fs p → update info plus order dx σ p = σ p) := by
  unfold formHessian at h
  cases he : evalOrder info (fs.map (fun f => f.blocks.map Prod.fst)) with
  | error e => rw [he] at h; cases h
  | ok on =>
    obtain ⟨o, m⟩ := on
    rw [he] at h
    obtain ⟨h1, h2, h3, h4, h5, h6⟩ := order_facts hw he
    simp only [bind, Except.bind, pure, Except.pure, h6, Except.ok.injEq, Prod.mk.injEq] at h
    obtain ⟨rfl, rfl, _, _⟩ := h
    rw [update_apply info plus o h2]
    constructor
    · intro hp; rw [if_pos ((h1 p).mpr hp)]; rfl
    · intro hp; rw [if_neg (fun hc => hp ((h1 p).mp hc))]

/-- C49: the assembly succeeds exactly when a camera parameter is optimised.  Without one it
reads past the end of the (empty) list of camera parameters. -/
theorem C49_defined (info : P → ParamInfo) (fs : List (Res K P)) :
    (∃ x, formHessian info fs = .ok x) ↔ ∃ p, Optimised info fs p ∧ (info p).kind = .camera := by
  have hiff := evalOrder_isOk info (fs.map (fun f => f.blocks.map Prod.fst))
  have h2 : (∃ bs ∈ fs.map (fun f => f.blocks.map Prod.fst), ∃ p ∈ bs,
      (info p).fixed = false ∧ (info p).kind = .camera) ↔
      ∃ p, Optimised info fs p ∧ (info p).kind = .camera := by
    constructor
    · rintro ⟨bs, hbs, p, hp, hf, hk⟩
      obtain ⟨f, hf', rfl⟩ := List.mem_map.mp hbs
      exact ⟨p, ⟨hf, f, hf', hp⟩, hk⟩
    · rintro ⟨p, ⟨hf, f, hf', hp⟩, hk⟩
      exact ⟨_, List.mem_map.mpr ⟨f, hf', rfl⟩, p, hp, hf, hk⟩
  rw [← h2, ← hiff]
  unfold formHessian
  cases he : evalOrder info (fs.map (fun f => f.blocks.map Prod.fst)) with
  | error e =>
    constructor
    · rintro ⟨x, hx⟩; cases hx
    · rintro ⟨o, n, h⟩; cases h
  | ok on =>
    obtain ⟨o, m⟩ := on
    exact ⟨fun _ => ⟨o, m, rfl⟩, fun _ => ⟨_, rfl⟩⟩

/-- C49 fails without a camera parameter: one residual on one free pose is undefined
behaviour. -/
theorem C49_no_camera_refuted :
    formHessian (K := ℤ) (fun _ : Nat => ⟨false, .pose, 1⟩) [⟨1, fun _ => 1, [(0, fun _ _ => 1)]⟩] =
      .error .oob := rfl

/-- C49 fails for an optimised parameter of a type the solver does not know (for instance
`time_delay_t`): it is given column 0, which belongs to another parameter, so both
parameters are updated with the same segment and `H` has no column for it. -/
theorem C49_unknown_type_refuted :
    let info : Nat → ParamInfo := fun p => if p = 0 then ⟨false, .camera, 1⟩ else ⟨false, .other, 1⟩
    let f : Res ℤ Nat := ⟨1, fun _ => 1, [(0, fun _ _ => 1), (1, fun _ _ => 5)]⟩
    ∃ order H b, formHessian info [f] = .ok (order, 2, H, b) ∧
      col order 0 = 0 ∧ col order 1 = 0 ∧ (∀ a, H a 1 = 0) := by
  refine ⟨_, _, _, rfl, rfl, rfl, ?_⟩
  intro a
  simp [hessBlocks, hessInner, addBlock, track, trackStep, assign, col]

/-- C49 witness: a well-formed problem with a pose, a camera and a fixed extrinsic. -/
example : WellFormed (K := ℤ) (fun p : Nat => if p = 0 then ⟨false, .pose, 6⟩ else
      if p = 1 then ⟨false, .camera, 8⟩ else ⟨true, .extrinsics, 6⟩)
    [⟨2, fun _ => 1, [(0, fun _ _ => 1), (1, fun _ _ => 2), (2, fun _ _ => 3)]⟩] := by
  constructor
  · rintro p ⟨hf, _⟩
    simp only at hf ⊢
    split_ifs at hf ⊢ <;> simp_all
  · simp

end normal

/-! ## C47, C48 -/

section loops
variable {K P V : Type} [DecidableEq P] [Field K] [LinearOrder K] [IsStrictOrderedRing K]

theorem Flt.sub_lt_zero (a b : Flt K) : Flt.lt (Flt.sub a b) (.fin 0) = Flt.lt a b := by
  cases a <;> cases b <;> simp [Flt.sub, Flt.lt]

theorem Flt.lt_trans {a b c : Flt K} (h1 : Flt.lt a b = true) (h2 : Flt.lt b c = true) :
    Flt.lt a c = true := by
  cases a <;> cases b <;> cases c <;> simp_all [Flt.lt]
  exact _root_.lt_trans h1 h2

/-- Every parameter of a residual was registered with `add_param`. -/
def Registered (pb : Prob K P V) : Prop := ∀ bs ∈ pb.blocks, ∀ p ∈ bs, p ∈ pb.params

theorem trial_spec (pb : Prob K P V) (lam : K) (iter : Nat) (σ σ' : P → V)
    (h : trial pb lam iter σ = .ok σ') :
    ∀ p, ¬ ((pb.info p).fixed = false ∧ ∃ bs ∈ pb.blocks, p ∈ bs) → σ' p = σ p := by
  unfold trial at h
  split at h
  · cases h
  · cases he : evalOrder pb.info pb.blocks with
    | error e => rw [he] at h; cases h
    | ok on =>
      obtain ⟨o, n⟩ := on
      rw [he] at h
      simp only [bind, Except.bind, pure, Except.pure, Except.ok.injEq] at h
      subst h
      intro p hp
      obtain ⟨ho, _⟩ := evalOrder_ok he
      have hk : o.map Prod.fst = (track pb.info pb.blocks).all := by rw [ho, assign_keys]
      rw [update_apply]
      · rw [if_neg]
        intro hm
        rw [touchAll_keys, hk, track_all_mem] at hm
        apply hp
        rcases hm with ⟨a, b, _⟩ | ⟨a, b⟩ <;> exact ⟨b, List.mem_flatten.mp a⟩
      · apply touchAll_nodup
        rw [hk]; exact track_all_nodup _ _

/-- C47: one iteration either accepts a step that strictly decreases the cost (as compared
by the floating-point `<`, so never to or from NaN) and divides lambda by ten, or restores
every parameter exactly and multiplies lambda by ten.  Whatever the linear solver returned. -/
theorem C47_lm_step (pb : Prob K P V) (hreg : Registered pb) (iter : Nat) (σ : P → V) (lam : K)
    (s : (P → V) × Flt K × K) (h : lmStep pb iter (σ, pb.cost σ, lam) = .ok s) :
    (Flt.lt (pb.cost s.1) (pb.cost σ) = true ∧ trial pb lam iter σ = .ok s.1 ∧
      s.2.1 = pb.cost s.1 ∧ s.2.2 = lam / 10) ∨
    (s.1 = σ ∧ s.2.1 = pb.cost σ ∧ s.2.2 = lam * 10 ∧
      ∃ σ', trial pb lam iter σ = .ok σ' ∧ Flt.lt (pb.cost σ') (pb.cost σ) = false) := by
  unfold lmStep at h
  simp only at h
  cases ht : trial pb lam iter σ with
  | error e => rw [ht] at h; cases h
  | ok σ' =>
    rw [ht] at h
    simp only [bind, Except.bind, pure, Except.pure] at h
    rw [Flt.sub_lt_zero] at h
    split at h
    · rename_i hlt
      cases h
      exact Or.inl ⟨hlt, rfl, rfl, rfl⟩
    · rename_i hlt
      cases h
      refine Or.inr ⟨?_, rfl, rfl, σ', rfl, by simpa using hlt⟩
      apply restore_cache
      intro q hq
      apply trial_spec pb lam iter σ σ' ht
      rintro ⟨_, bs, hbs, hp⟩
      exact hq (hreg bs hbs q hp)

theorem lmLoop_spec (pb : Prob K P V) (hreg : Registered pb) (n iter : Nat) (σ : P → V) (lam : K)
    (s : (P → V) × Flt K × K) (h : lmLoop pb n iter (σ, pb.cost σ, lam) = .ok s) :
    (s.1 = σ ∨ Flt.lt (pb.cost s.1) (pb.cost σ) = true) ∧
    (∀ p, ¬ ((pb.info p).fixed = false ∧ ∃ bs ∈ pb.blocks, p ∈ bs) → s.1 p = σ p) := by
  induction n generalizing iter σ lam with
  | zero => cases h; exact ⟨Or.inl rfl, fun _ _ => rfl⟩
  | succ n ih =>
    rw [lmLoop] at h
    cases hs : lmStep pb iter (σ, pb.cost σ, lam) with
    | error e => rw [hs] at h; cases h
    | ok s1 =>
      rw [hs] at h
      simp only [bind, Except.bind] at h
      obtain ⟨σ1, c1, l1⟩ := s1
      rcases C47_lm_step pb hreg iter σ lam _ hs with ⟨h1, ht, h2, _⟩ | ⟨h1, h2, _, _⟩
      · simp only at h1 h2 ht
        subst h2
        obtain ⟨a, b⟩ := ih _ _ _ h
        refine ⟨Or.inr ?_, fun p hp => (b p hp).trans (trial_spec pb lam iter σ σ1 ht p hp)⟩
        rcases a with a | a
        · rw [a]; exact h1
        · exact Flt.lt_trans a h1
      · simp only at h1 h2
        subst h1 h2
        exact ih _ _ _ h

/-- C47: Levenberg-Marquardt ends either at the starting point itself or at a point of
strictly smaller cost, for every linear solver, cost function, iteration count and lambda;
parameters that are fixed or used by no residual keep their value. -/
theorem C47_lm_never_worse (pb : Prob K P V) (hreg : Registered pb) (lambda : K) (maxIter : Nat)
    (σ σ' : P → V) (h : solve pb "LEVENBERG-MARQUARDT" lambda maxIter σ = .ok σ') :
    (σ' = σ ∨ Flt.lt (pb.cost σ') (pb.cost σ) = true) ∧
    (∀ p, ¬ ((pb.info p).fixed = false ∧ ∃ bs ∈ pb.blocks, p ∈ bs) → σ' p = σ p) := by
  rw [solve, if_pos rfl, solveLM] at h
  cases hs : lmLoop pb (maxIter - 1) 1 (σ, pb.cost σ, lambda) with
  | error e => rw [hs] at h; cases h
  | ok s =>
    rw [hs] at h
    cases h
    exact lmLoop_spec pb hreg _ _ _ _ _ hs

theorem trial_ok (pb : Prob K P V) (hev : ∀ σ, pb.evalOk σ = true)
    (hcam : ∃ bs ∈ pb.blocks, ∃ p ∈ bs, (pb.info p).fixed = false ∧ (pb.info p).kind = .camera)
    (lam : K) (iter : Nat) (σ : P → V) : ∃ σ', trial pb lam iter σ = .ok σ' := by
  obtain ⟨o, n, he⟩ := (evalOrder_isOk pb.info pb.blocks).mpr hcam
  exact ⟨_, by rw [trial, if_neg (by simp [hev]), he]; rfl⟩

/-- C47, C48: both algorithms return normally when every residual can be evaluated and a
camera parameter is optimised; another algorithm name is fatal. -/
theorem C47_solve_returns (pb : Prob K P V) (hev : ∀ σ, pb.evalOk σ = true)
    (hcam : ∃ bs ∈ pb.blocks, ∃ p ∈ bs, (pb.info p).fixed = false ∧ (pb.info p).kind = .camera)
    (lambda : K) (maxIter : Nat) (σ : P → V) :
    (∃ σ', solve pb "LEVENBERG-MARQUARDT" lambda maxIter σ = .ok σ') ∧
    (∃ σ', solve pb "GAUSS-NEWTON" lambda maxIter σ = .ok σ') ∧
    (∀ alg, alg ≠ "LEVENBERG-MARQUARDT" → alg ≠ "GAUSS-NEWTON" →
      solve pb alg lambda maxIter σ = .error .fatal) := by
  have hlm : ∀ n iter s, ∃ s', lmLoop pb n iter s = .ok s' := by
    intro n
    induction n with
    | zero => intro iter s; exact ⟨s, rfl⟩
    | succ n ih =>
      intro iter s
      obtain ⟨σ', ht⟩ := trial_ok pb hev hcam s.2.2 iter s.1
      rw [lmLoop]
      unfold lmStep
      simp only [ht, bind, Except.bind, pure, Except.pure]
      split_ifs <;> exact ih _ _
  have hgn : ∀ n iter s, ∃ s', gnLoop pb n iter s = .ok s' := by
    intro n
    induction n with
    | zero => intro iter s; exact ⟨s, rfl⟩
    | succ n ih =>
      intro iter s
      obtain ⟨σ', ht⟩ := trial_ok pb hev hcam 0 iter s.1
      rw [gnLoop, ht]
      exact ih _ _
  refine ⟨?_, ?_, ?_⟩
  · obtain ⟨s, hs⟩ := hlm (maxIter - 1) 1 (σ, pb.cost σ, lambda)
    exact ⟨s.1, by rw [solve, if_pos rfl, solveLM, hs]; rfl⟩
  · obtain ⟨s, hs⟩ := hgn (maxIter - 1) 1 (σ, .fin 0)
    rw [solve, if_neg (by decide), if_pos rfl, solveGN, hs]
    simp only [bind, Except.bind, pure, Except.pure]
    split_ifs <;> exact ⟨_, rfl⟩
  · intro alg h1 h2
    rw [solve, if_neg h1, if_neg h2]

omit [DecidableEq P] in
theorem exists_ok {ε α : Type} (x : Except ε α) (p : α → Prop) [DecidablePred p]
    (h : x.toOption.any (fun a => decide (p a)) = true) : ∃ a, x = .ok a ∧ p a := by
  cases x with
  | error e => simp [Except.toOption] at h
  | ok a => exact ⟨a, rfl, by simpa [Except.toOption] using h⟩

/-- One camera parameter that is not registered, cost = its value, a solver that always
proposes +1. -/
def badProb : Prob ℚ Nat ℚ where
  params := []
  info := fun _ => ⟨false, .camera, 1⟩
  blocks := [[0]]
  plus := fun _ v d => v + d.sum
  evalOk := fun _ => true
  cost := fun σ => .fin (σ 0)
  solve := fun _ _ _ _ => 1

/-- C47 fails when a residual uses a parameter that was not registered with `add_param`:
the rejected step is not undone and the cost grows. -/
theorem C47_unregistered_refuted :
    ∃ σ', solve badProb "LEVENBERG-MARQUARDT" 1 2 (fun _ => 0) = .ok σ' ∧
      Flt.lt (badProb.cost (fun _ => 0)) (badProb.cost σ') = true := by
  apply exists_ok
  decide +kernel

/-- C48, partial: Gauss-Newton ends at the starting point or at a point whose cost is not
greater as compared by the floating-point `>`; in particular, if the final cost is a number,
it is at most an initial cost that is a number.  Missing: a NaN final cost is kept, see
`C48_gn_nan_refuted`. -/
theorem C48_gn_not_worse_partial (pb : Prob K P V) (hreg : Registered pb) (lambda : K)
    (maxIter : Nat) (σ σ' : P → V) (h : solve pb "GAUSS-NEWTON" lambda maxIter σ = .ok σ') :
    (σ' = σ ∨ Flt.lt (pb.cost σ) (pb.cost σ') = false) ∧
    (∀ x y, pb.cost σ = .fin x → pb.cost σ' = .fin y → y ≤ x) ∧
    (∀ p, ¬ ((pb.info p).fixed = false ∧ ∃ bs ∈ pb.blocks, p ∈ bs) → σ' p = σ p) := by
  have loop : ∀ n iter (σ0 : P → V) c s, gnLoop pb n iter (σ0, c) = .ok s →
      ((n = 0 ∧ s = (σ0, c)) ∨ s.2 = pb.cost s.1) ∧
      ∀ p, ¬ ((pb.info p).fixed = false ∧ ∃ bs ∈ pb.blocks, p ∈ bs) → s.1 p = σ0 p := by
    intro n
    induction n with
    | zero => intro iter σ0 c s h; cases h; exact ⟨Or.inl ⟨rfl, rfl⟩, fun _ _ => rfl⟩
    | succ n ih =>
      intro iter σ0 c s h
      rw [gnLoop] at h
      cases ht : trial pb 0 iter σ0 with
      | error e => simp only [ht] at h; cases h
      | ok σ1 =>
        simp only [ht, bind, Except.bind] at h
        obtain ⟨a, b⟩ := ih _ _ _ _ h
        refine ⟨Or.inr ?_, fun p hp => (b p hp).trans (trial_spec pb 0 iter σ0 σ1 ht p hp)⟩
        rcases a with ⟨_, rfl⟩ | a
        · rfl
        · exact a
  have key : (σ' = σ ∨ Flt.lt (pb.cost σ) (pb.cost σ') = false) ∧
      (∀ p, ¬ ((pb.info p).fixed = false ∧ ∃ bs ∈ pb.blocks, p ∈ bs) → σ' p = σ p) := by
    rw [solve, if_neg (by decide), if_pos rfl, solveGN] at h
    cases hs : gnLoop pb (maxIter - 1) 1 (σ, .fin 0) with
    | error e => rw [hs] at h; cases h
    | ok s =>
      rw [hs] at h
      obtain ⟨σ1, c1⟩ := s
      obtain ⟨a, b⟩ := loop _ _ _ _ _ hs
      simp only [bind, Except.bind, pure, Except.pure] at h
      split at h
      · cases h
        have hr : restoreParams (cacheParams pb.params σ) σ1 = σ := by
          apply restore_cache
          intro q hq
          apply b
          rintro ⟨_, bs, hbs, hp⟩
          exact hq (hreg bs hbs q hp)
        rw [hr]
        exact ⟨Or.inl rfl, fun _ _ => rfl⟩
      · rename_i hlt
        cases h
        refine ⟨?_, b⟩
        rcases a with ⟨_, h2⟩ | h2
        · cases h2; exact Or.inl rfl
        · right; simp only at h2; rw [← h2]; simpa using hlt
  refine ⟨key.1, ?_, key.2⟩
  intro x y hx hy
  rcases key.1 with rfl | h'
  · rw [hx] at hy; cases hy; exact le_refl _
  · rw [hx, hy] at h'; simpa [Flt.lt] using h'

/-- One registered camera parameter; the step leads to a point whose cost is NaN. -/
def nanProb : Prob ℚ Nat ℚ where
  params := [0]
  info := fun _ => ⟨false, .camera, 1⟩
  blocks := [[0]]
  plus := fun _ v d => v + d.sum
  evalOk := fun _ => true
  cost := fun σ => if σ 0 = 0 then .fin 1 else .nan
  solve := fun _ _ _ _ => 1

/-- C48 fails when the iteration produces a NaN cost: `cost_k > cost_init` is false and the
parameters are not restored.  (Levenberg-Marquardt restores them.) -/
theorem C48_gn_nan_refuted :
    (∃ σ', solve nanProb "GAUSS-NEWTON" 1 2 (fun _ => 0) = .ok σ' ∧
      nanProb.cost (fun _ => 0) = .fin 1 ∧ nanProb.cost σ' = .nan) ∧
    ∃ σ', solve nanProb "LEVENBERG-MARQUARDT" 1 2 (fun _ => 0) = .ok σ' ∧
      nanProb.cost σ' = .fin 1 := by
  constructor <;> apply exists_ok <;> decide +kernel

/-- C47/C48 witness: a registered problem on which a step is accepted. -/
example : Registered { badProb with params := [0], cost := fun σ => .fin (- σ 0) } ∧
    ∃ σ', solve { badProb with params := [0], cost := fun σ => .fin (- σ 0) }
      "LEVENBERG-MARQUARDT" 1 4 (fun _ => 0) = .ok σ' ∧ σ' 0 = 3 := by
  refine ⟨by simp [Registered, badProb], ?_⟩
  apply exists_ok
  decide +kernel

end loops
end Yac.Solver
