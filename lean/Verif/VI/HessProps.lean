import Verif.VI.Hess
import Verif.Solver.Props

/-! C113: the information matrix of a visual-inertial calibration. -/

namespace Yac.VI.Hess
open Yac.Solver

variable {K P R : Type} [DecidableEq P] [CommRing K]

/-- The Jacobian of a residual with respect to a parameter, zero if it does not depend on it. -/
def jacOf (f : Res K P) (p : P) : Mat K :=
  match f.blocks.find? (fun b => b.1 = p) with
  | some b => b.2
  | none => fun _ _ => 0

/-- The information the residuals hold about component `a` of `p` and component `b` of `q`: the sum over all
residuals and their rows of the products of the derivatives. -/
def information (fs : List (Res K P)) (p q : P) (a b : Nat) : K :=
  (fs.map fun f => ∑ k ∈ Finset.range f.size, jacOf f p k a * jacOf f q k b).sum

/-- The residuals taken into account: those of the views with an IMU factor, and the marginalisation residual. -/
def Counted (views : List (HView R)) (marg : Option R) (r : R) : Prop :=
  (∃ v ∈ views, v.imu.isSome ∧ (r ∈ v.fids ∨ v.imu = some r)) ∨ marg = some r

theorem mem_collect (views : List (HView R)) (marg : Option R) (r : R) : r ∈ collect views marg ↔ Counted views marg r := by
  unfold collect Counted
  rw [List.mem_append, List.mem_flatMap, Option.mem_toList]
  refine or_congr (exists_congr fun v => and_congr Iff.rfl ?_) Iff.rfl
  cases h : v.imu with
  | none => simp
  | some s => simp [eq_comm]

theorem evalAll_ok {evaluate : R → Option (Res K P)} {rs : List R} {g : R → Res K P}
    (h : ∀ r ∈ rs, evaluate r = some (g r)) : evalAll evaluate rs = .ok (rs.map g) := by
  unfold evalAll
  induction rs with
  | nil => rfl
  | cons r rs ih =>
    rw [List.mapM_cons, h r (by simp), ih (fun x hx => h x (by simp [hx]))]
    rfl

theorem evalAll_fatal {evaluate : R → Option (Res K P)} {rs : List R} (h : ∃ r ∈ rs, evaluate r = none) :
    evalAll evaluate rs = .error .fatal := by
  unfold evalAll
  induction rs with
  | nil => simp at h
  | cons r rs ih =>
    rw [List.mapM_cons]
    cases hr : evaluate r with
    | none => rfl
    | some f =>
      rw [ih (by
        obtain ⟨x, hx, hn⟩ := h
        rcases List.mem_cons.1 hx with rfl | hx
        · rw [hr] at hn; cases hn
        · exact ⟨x, hx, hn⟩)]
      rfl

/-- `viOrder` lists the same parameters as the solver's order does. -/
theorem order_perm (t : Track P) : (t.ext ++ t.pose ++ t.sb ++ t.cam ++ t.fid).Perm t.all := by
  unfold Track.all
  refine List.Perm.append_right _ ?_
  rw [List.append_assoc t.ext, List.append_assoc t.ext]
  exact List.perm_append_comm

theorem hess_sum (info : P → ParamInfo) (c : P → Nat) (fs : List (Res K P)) (H : Mat K) (v : Nat → K) (a b : Nat) :
    (fs.foldl (fun (Hb : Mat K × (Nat → K)) f => hessBlocks info c f.size f.r Hb.1 Hb.2 f.blocks) (H, v)).1 a b =
      H a b + (fs.map fun f => ∑ k ∈ Finset.range f.size, rowG info c f.blocks k a * rowG info c f.blocks k b).sum := by
  induction fs generalizing H v with
  | nil => simp
  | cons f fs ih =>
    have h := (hessBlocks_eq info c f.size f.r f.blocks H v).1 a b
    rw [List.foldl_cons]
    have := ih (hessBlocks info c f.size f.r H v f.blocks).1 (hessBlocks info c f.size f.r H v f.blocks).2
    rw [this, h, List.map_cons, List.sum_cons, add_assoc]

/-- What the order gives for a well-formed problem. -/
theorem vi_order_facts {info : P → ParamInfo} {fs : List (Res K P)} (hw : WellFormed info fs)
    {o : List (P × Nat)} {n : Nat} (h : viOrder info (fs.map (fun f => f.blocks.map Prod.fst)) = (o, n)) :
    (∀ p, p ∈ o.map Prod.fst ↔ Optimised info fs p) ∧
    (∀ p, Optimised info fs p → col o p + (info p).size ≤ n) ∧
    (∀ a, a < n → ∃ p, Optimised info fs p ∧ InCol info (col o) p a) ∧
    (∀ p q a, Optimised info fs p → Optimised info fs q → InCol info (col o) p a → InCol info (col o) q a → p = q) ∧
    touchAll info o (fs.flatMap (fun f => f.blocks.map Prod.fst)) = o ∧
    (∀ p q, Optimised info fs p → Optimised info fs q → (info p).kind = .extrinsics → (info q).kind ≠ .extrinsics →
      col o p + (info p).size ≤ col o q) := by
  obtain ⟨T, hT⟩ : ∃ T, T = track info (fs.map (fun f => f.blocks.map Prod.fst)) := ⟨_, rfl⟩
  have hinv := track_inv info (fs.map (fun f => f.blocks.map Prod.fst))
  rw [← hT] at hinv
  unfold viOrder at h
  rw [← hT] at h
  obtain ⟨ho, hn⟩ := Prod.mk.inj h
  have hp := order_perm T
  have hmem : ∀ p, p ∈ T.ext ++ T.pose ++ T.sb ++ T.cam ++ T.fid ↔ Optimised info fs p := by
    intro p
    rw [hp.mem_iff, hT, track_all_mem, mem_blocks_flatten]
    exact ⟨fun ⟨a, b, _⟩ => ⟨b, a⟩, fun hp => ⟨hp.2, hp.1, hw.1 p hp⟩⟩
  have hlen : n = ((T.ext ++ T.pose ++ T.sb ++ T.cam ++ T.fid).map fun p => (info p).size).sum := by
    rw [← hn, hinv.len (fun p hp hf => hw.1 p ⟨hf, (mem_blocks_flatten fs p).mp hp⟩)]
    exact ((hp.map _).sum_eq).symm
  have hnd : (T.ext ++ T.pose ++ T.sb ++ T.cam ++ T.fid).Nodup := by
    rw [hp.nodup_iff, hT]
    exact track_all_nodup _ _
  have hkeys : o.map Prod.fst = T.ext ++ T.pose ++ T.sb ++ T.cam ++ T.fid := by rw [← ho, assign_keys]
  refine ⟨fun p => by rw [hkeys]; exact hmem p, ?_, ?_, ?_, ?_, ?_⟩
  · intro p hp
    have := (assign_bounds info _ 0 p ((hmem p).mpr hp)).2
    rw [ho, ← hlen] at this
    omega
  · intro a ha
    obtain ⟨p, hp, hc⟩ := assign_cover info _ hnd 0 a (Nat.zero_le _) (by rw [← hlen]; omega)
    exact ⟨p, (hmem p).mp hp, by rw [← ho]; exact hc⟩
  · intro p q a hp hq h1 h2
    rw [← ho] at h1 h2
    exact assign_disjoint info _ 0 a p q ((hmem p).mpr hp) ((hmem q).mpr hq) h1 h2
  · apply touchAll_eq
    intro p hp hf
    rw [flatMap_eq, mem_blocks_flatten] at hp
    rw [hkeys, hmem]; exact ⟨hf, hp⟩
  · intro p q hp hq hkp hkq
    have hpe : p ∈ T.ext := by
      have := hinv.mem .extrinsics p
      exact this.2 ⟨(mem_blocks_flatten fs p).2 hp.2, hp.1, hkp, by simp⟩
    have hqe : q ∉ T.ext := fun h => hkq ((hinv.mem .extrinsics q).1 h).2.2.1
    have hq' := (hmem q).2 hq
    rw [← ho]
    have key : ∀ (l r : List P) (i : Nat), p ∈ l → q ∉ l → q ∈ r →
        col (assign info i (l ++ r)) p + (info p).size ≤ col (assign info i (l ++ r)) q := by
      intro l
      induction l with
      | nil => intro r i h; simp at h
      | cons x l ih =>
        intro r i hpl hql hqr
        rw [List.cons_append, assign, col_cons, col_cons]
        have hxq : x ≠ q := fun h => hql (by simp [h])
        rw [if_neg hxq]
        by_cases hx : x = p
        · rw [if_pos hx]
          have := (assign_bounds info (l ++ r) (i + (info x).size) q (by simp [hqr])).1
          rw [hx] at this ⊢
          exact this
        · rw [if_neg hx]
          exact ih r _ (by
            rcases List.mem_cons.1 hpl with h | h
            · exact absurd h.symm hx
            · exact h) (fun h => hql (by simp [h])) hqr
    rw [List.append_assoc, List.append_assoc, List.append_assoc] at hq' ⊢
    exact key _ _ 0 hpe hqe (by
      rcases List.mem_append.1 hq' with h | h
      · exact absurd h hqe
      · exact h)

theorem jacOf_mem {f : Res K P} (hn : (f.blocks.map Prod.fst).Nodup) {b : P × Mat K} (hb : b ∈ f.blocks) :
    jacOf f b.1 = b.2 := by
  unfold jacOf
  cases h : f.blocks.find? (fun x => x.1 = b.1) with
  | none =>
    have := List.find?_eq_none.1 h b hb
    simp at this
  | some x =>
    have h1 : x.1 = b.1 := by simpa using List.find?_some h
    have h2 := List.mem_of_find?_eq_some h
    rw [List.inj_on_of_nodup_map hn h2 hb h1]

theorem jacOf_not_mem {f : Res K P} {p : P} (h : p ∉ f.blocks.map Prod.fst) : jacOf f p = fun _ _ => 0 := by
  unfold jacOf
  have : f.blocks.find? (fun x => x.1 = p) = none := by
    rw [List.find?_eq_none]
    intro x hx hxp
    exact h (List.mem_map.2 ⟨x, hx, by simpa using hxp⟩)
  rw [this]

theorem rowG_jacOf {info : P → ParamInfo} {fs : List (Res K P)} (hw : WellFormed info fs) {c : P → Nat}
    (hd : ∀ p q a, Optimised info fs p → Optimised info fs q → InCol info c p a → InCol info c q a → p = q)
    {f : Res K P} (hf : f ∈ fs) {p : P} (hp : Optimised info fs p) (k : Nat) {a : Nat} (ha : a < (info p).size) :
    rowG info c f.blocks k (c p + a) = jacOf f p k a := by
  have hc : InCol info c p (c p + a) := ⟨by omega, by omega⟩
  have ho : ∀ b ∈ f.blocks, (info b.1).fixed = false → Optimised info fs b.1 :=
    fun b hb hbf => ⟨hbf, f, hf, List.mem_map.2 ⟨b, hb, rfl⟩⟩
  by_cases h : p ∈ f.blocks.map Prod.fst
  · obtain ⟨b, hb, rfl⟩ := List.mem_map.1 h
    rw [rowG_single info c f.blocks k _ (hw.2 f hf)
      (fun x hx y hy hxf hyf h1 h2 => hd _ _ _ (ho x hx hxf) (ho y hy hyf) h1 h2) b hb hp.1 hc, jacOf_mem (hw.2 f hf) hb,
      Nat.add_sub_cancel_left]
  · rw [jacOf_not_mem h, rowG_zero]
    intro b hb hbf hbc
    have := hd _ _ _ (ho b hb hbf) hp hbc hc
    exact h (List.mem_map.2 ⟨b, hb, this⟩)

/-- **C113 (partial).**  For every set of views whose residuals can be evaluated and whose free parameters are of the
five known types, in whatever order the residuals are visited: the free parameters own disjoint columns that cover
the matrix, those of extrinsics first, and the entry for component `a` of `p` and `b` of `q` is the information the
residuals of the views with an IMU factor, and the marginalisation residual, hold about them. -/
theorem C113_hessian_partial (info : P → ParamInfo) (evaluate : R → Option (Res K P)) (g : R → Res K P)
    (views : List (HView R)) (marg : Option R) (rs : List R) (hrs : rs.Perm (collect views marg))
    (hev : ∀ r, Counted views marg r → evaluate r = some (g r))
    (hw : WellFormed info ((collect views marg).map g)) :
    ∃ order n H, formHessian info evaluate rs = .ok (order, n, H) ∧
      (∀ p, p ∈ order.map Prod.fst ↔ (info p).fixed = false ∧ ∃ r, Counted views marg r ∧ p ∈ (g r).blocks.map Prod.fst) ∧
      (∀ p ∈ order.map Prod.fst, col order p + (info p).size ≤ n) ∧
      (∀ i, i < n → ∃! p, p ∈ order.map Prod.fst ∧ col order p ≤ i ∧ i < col order p + (info p).size) ∧
      (∀ p ∈ order.map Prod.fst, ∀ q ∈ order.map Prod.fst, (info p).kind = .extrinsics → (info q).kind ≠ .extrinsics →
        col order p + (info p).size ≤ col order q) ∧
      ∀ p ∈ order.map Prod.fst, ∀ q ∈ order.map Prod.fst, ∀ a < (info p).size, ∀ b < (info q).size,
        H (col order p + a) (col order q + b) = information ((collect views marg).map g) p q a b := by
  have hmem : ∀ f, f ∈ rs.map g ↔ f ∈ (collect views marg).map g := fun f => (hrs.map g).mem_iff
  have hopt : ∀ p, Optimised info (rs.map g) p ↔ Optimised info ((collect views marg).map g) p := by
    intro p
    unfold Optimised
    simp only [hmem]
  have hw' : WellFormed info (rs.map g) := ⟨fun p hp => hw.1 p ((hopt p).1 hp), fun f hf => hw.2 f ((hmem f).1 hf)⟩
  have hall : evalAll evaluate rs = .ok (rs.map g) :=
    evalAll_ok fun r hr => hev r ((mem_collect views marg r).1 (hrs.mem_iff.1 hr))
  obtain ⟨o, n, hon⟩ : ∃ o n, viOrder info ((rs.map g).map (fun f => f.blocks.map Prod.fst)) = (o, n) := ⟨_, _, rfl⟩
  obtain ⟨f1, f2, f3, f4, f5, f6⟩ := vi_order_facts hw' hon
  refine ⟨o, n, ((rs.map g).foldl (fun (Hb : Mat K × (Nat → K)) f =>
    hessBlocks info (col o) f.size f.r Hb.1 Hb.2 f.blocks) (fun _ _ => 0, fun _ => 0)).1, ?_, ?_, ?_, ?_, ?_, ?_⟩
  · unfold formHessian
    rw [hall]
    show Except.ok _ = _
    simp only [hon, f5]
  · intro p
    rw [f1, hopt]
    unfold Optimised
    refine and_congr Iff.rfl ?_
    simp only [List.mem_map (f := g)]
    constructor
    · rintro ⟨f, ⟨r, hr, rfl⟩, hp⟩
      exact ⟨r, (mem_collect _ _ _).1 hr, hp⟩
    · rintro ⟨r, hr, hp⟩
      exact ⟨_, ⟨r, (mem_collect _ _ _).2 hr, rfl⟩, hp⟩
  · intro p hp
    exact f2 p ((f1 p).1 hp)
  · intro i hi
    obtain ⟨p, hp, hc⟩ := f3 i hi
    exact ⟨p, ⟨(f1 p).2 hp, hc⟩, fun q hq => f4 q p i ((f1 q).1 hq.1) hp hq.2 hc⟩
  · intro p hp q hq
    exact f6 p q ((f1 p).1 hp) ((f1 q).1 hq)
  · intro p hp q hq a ha b hb
    have hp' := (f1 p).1 hp
    have hq' := (f1 q).1 hq
    rw [hess_sum, zero_add]
    unfold information
    have e1 : (rs.map g).map (fun f => ∑ k ∈ Finset.range f.size,
          rowG info (col o) f.blocks k (col o p + a) * rowG info (col o) f.blocks k (col o q + b)) =
        (rs.map g).map (fun f => ∑ k ∈ Finset.range f.size, jacOf f p k a * jacOf f q k b) := by
      apply List.map_congr_left
      intro f hf
      apply Finset.sum_congr rfl
      intro k _
      rw [rowG_jacOf hw' f4 hf hp' k ha, rowG_jacOf hw' f4 hf hq' k hb]
    rw [e1]
    exact ((hrs.map g).map _).sum_eq

/-- A residual that cannot be evaluated is fatal, whatever the order. -/
theorem C113_fatal (info : P → ParamInfo) (evaluate : R → Option (Res K P)) (views : List (HView R)) (marg : Option R)
    (rs : List R) (hrs : rs.Perm (collect views marg)) (h : ∃ r, Counted views marg r ∧ evaluate r = none) :
    formHessian info evaluate rs = .error .fatal := by
  obtain ⟨r, hr, hn⟩ := h
  unfold formHessian
  rw [evalAll_fatal ⟨r, hrs.mem_iff.2 ((mem_collect _ _ _).2 hr), hn⟩]
  rfl

/-- **C113 refuted.**  The newest view, which has no IMU factor yet, is left out: whatever its cameras saw, the
matrix is the one without it. -/
theorem C113_newest_refuted (views : List (HView R)) (marg : Option R) (fids : List R) :
    collect (views ++ [⟨none, fids⟩]) marg = collect views marg := by
  unfold collect
  rw [List.flatMap_append]
  simp

/-- **C113 refuted.**  With a free time delay, a type the function does not know, the information about the delay
(25, derivative 5) and its correlation are added to the first extrinsics column and the column counted for it stays
zero. -/
theorem C113_time_delay_refuted :
    let info : Nat → ParamInfo := fun p => if p = 0 then ⟨false, .extrinsics, 1⟩ else ⟨false, .other, 1⟩
    let f : Res ℤ Nat := ⟨1, fun _ => 0, [(0, fun _ _ => 2), (1, fun _ _ => 5)]⟩
    ∃ order H, formHessian info (fun _ : Unit => some f) (collect [⟨some (), []⟩] none) = .ok (order, 2, H) ∧
      col order 0 = 0 ∧ col order 1 = 0 ∧ H 0 0 = 49 ∧ (∀ a, H a 1 = 0 ∧ H 1 a = 0) ∧
      information [f] 0 0 0 0 = 4 := by
  refine ⟨_, _, rfl, rfl, rfl, ?_, ?_, ?_⟩
  · simp [hessBlocks, hessInner, addBlock, track, trackStep, assign, col, viOrder, tMul, sumN]
  · intro a
    simp [hessBlocks, hessInner, addBlock, track, trackStep, assign, col, viOrder]
  · simp [information, jacOf]

/-! ### Witness -/

/-- Two views joined by an IMU factor, a pose each, a camera, free IMU extrinsics and a fixed time delay. -/
example : ∃ order n H, formHessian (K := ℤ) (P := Nat) (fun p => if p = 0 then ⟨false, .extrinsics, 6⟩ else
      if p = 1 then ⟨false, .camera, 8⟩ else if p = 2 then ⟨true, .other, 1⟩ else ⟨false, .pose, 6⟩)
    (fun r : Nat => if r = 0 then some ⟨2, fun _ => 0, [(3, fun i j => i + j), (0, fun i _ => i), (1, fun _ _ => 1)]⟩
      else some ⟨15, fun _ => 0, [(3, fun i j => i * j), (4, fun i _ => i), (2, fun _ _ => 7)]⟩)
    (collect [⟨some 1, [0]⟩, ⟨none, [5]⟩] none) = .ok (order, n, H) ∧ n = 26 := by
  obtain ⟨o, n, H, h, -⟩ := C113_hessian_partial (K := ℤ) (P := Nat) (R := Nat)
    (fun p => if p = 0 then ⟨false, .extrinsics, 6⟩ else
      if p = 1 then ⟨false, .camera, 8⟩ else if p = 2 then ⟨true, .other, 1⟩ else ⟨false, .pose, 6⟩)
    (fun r : Nat => if r = 0 then some ⟨2, fun _ => 0, [(3, fun i j => i + j), (0, fun i _ => i), (1, fun _ _ => 1)]⟩
      else some ⟨15, fun _ => 0, [(3, fun i j => i * j), (4, fun i _ => i), (2, fun _ _ => 7)]⟩)
    (fun r : Nat => if r = 0 then ⟨2, fun _ => 0, [(3, fun i j => i + j), (0, fun i _ => i), (1, fun _ _ => 1)]⟩
      else ⟨15, fun _ => 0, [(3, fun i j => i * j), (4, fun i _ => i), (2, fun _ _ => 7)]⟩)
    [⟨some 1, [0]⟩, ⟨none, [5]⟩] none _ (List.Perm.refl _)
    (fun r _ => by split_ifs <;> rfl) (by
      constructor
      · rintro p ⟨hf, _⟩
        simp only at hf ⊢
        split_ifs at hf ⊢ <;> simp_all
      · intro f hf
        simp [collect] at hf
        rcases hf with rfl | rfl <;> simp)
  refine ⟨o, n, H, h, ?_⟩
  have h2 : formHessian _ _ _ = Except.ok _ := h
  rw [show formHessian (K := ℤ) (P := Nat) (fun p => if p = 0 then ⟨false, .extrinsics, 6⟩ else
      if p = 1 then ⟨false, .camera, 8⟩ else if p = 2 then ⟨true, .other, 1⟩ else ⟨false, .pose, 6⟩)
    (fun r : Nat => if r = 0 then some ⟨2, fun _ => 0, [(3, fun i j => i + j), (0, fun i _ => i), (1, fun _ _ => 1)]⟩
      else some ⟨15, fun _ => 0, [(3, fun i j => i * j), (4, fun i _ => i), (2, fun _ _ => 7)]⟩)
    (collect [⟨some 1, [0]⟩, ⟨none, [5]⟩] none) = .ok (_, 26, _) from rfl] at h2
  exact (congrArg (fun x => x.2.1) (Except.ok.inj h2)).symm

end Yac.VI.Hess
