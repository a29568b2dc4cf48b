import Verif.Marg.Chain

/-! C145: a sliding window forgets nothing: the residual left by any number of marginalisations is the exact summary of
all the residuals marginalised so far. -/

namespace Yac.Marg
open Matrix Yac.Solver Yac.Geom Finset

variable {P : Type} [DecidableEq P]

/-! ## Specification -/

/-- The residuals of one marginalisation and the values of the parameters they were linearised at. -/
structure Group (P : Type) where
  x : P → Nat → ℝ
  res : List (Res ℝ P)

/-- All residuals of the groups. -/
def allRes (G : List (Group P)) : List (Res ℝ P) := G.flatMap Group.res

/-- The first-order cost of all groups when every parameter is moved by `y` from the values `b`: a group linearised at
`g.x` sees the move `y - (g.x - b)`. -/
noncomputable def total (info : P → PInfo) (b : P → Nat → ℝ) (G : List (Group P)) (y : P → Nat → ℝ) : ℝ :=
  (G.map fun g => linCost info g.res fun p a => y p a - (g.x p a - b p a)).sum

/-- The descriptions of the parameters agree, except for the flag `marginalize`. -/
def Same (info info' : P → PInfo) : Prop := ∀ p, (info' p).base = (info p).base ∧ (info' p).gsize = (info p).gsize

/-- A sliding window: `b` are the values at the first marginalisation, `G` the groups marginalised so far, `x` the values at the
last one, `M` the residual it left.  Before the next one, more parameters are flagged (`info'`), the values have changed to `x'`
(those of poses are kept), and the residuals `gs` no longer use a parameter that was marginalised before. -/
inductive Window (eig : EigSolver) (b : P → Nat → ℝ) :
    List (Group P) → (P → PInfo) → (P → Nat → ℝ) → MargRes P → Prop
  | first {info fs M ps} (hk : KnownTypes info fs) (hw : WellScaled eig info fs)
      (h : marginalize eig info b fs = .ok (M, ps)) : Window eig b [⟨b, fs⟩] info b M
  | next {G info x M} {info' : P → PInfo} {x' gs R M' ps} (hG : Window eig b G info x M) (hs : Same info info')
      (hf : ∀ p, (info p).marg = true → (info' p).marg = true)
      (hx : ∀ p, PoseLike (info p) → x' p = b p)
      (hd : ∀ p, Marginalised info (allRes G) p → ¬ ∃ f ∈ gs, ∃ B, (p, B) ∈ f.blocks)
      (hk : KnownTypes info' gs) (hR : asRes info' M x' = .ok R) (hw : WellScaled eig info' (R :: gs))
      (h : marginalize eig info' x' (R :: gs) = .ok (M', ps)) : Window eig b (G ++ [⟨x', gs⟩]) info' x' M'

/-! ## Lemmas -/

omit [DecidableEq P] in
theorem Same.minus {info info' : P → PInfo} (h : Same info info') (p : P) (x x0 : Nat → ℝ) :
    minusOf (info' p) x x0 = minusOf (info p) x x0 := by
  unfold minusOf isPose
  rw [(h p).1, (h p).2]

omit [DecidableEq P] in
theorem Same.pose {info info' : P → PInfo} (h : Same info info') (p : P) : PoseLike (info' p) ↔ PoseLike (info p) := by
  unfold PoseLike
  rw [(h p).1, (h p).2]

omit [DecidableEq P] in
theorem Same.lin {info info' : P → PInfo} (h : Same info info') (fs : List (Res ℝ P)) (δ : P → Nat → ℝ) :
    linCost info' fs δ = linCost info fs δ := by
  unfold linCost
  simp only [fun p => (h p).1]

omit [DecidableEq P] in
theorem Same.total {info info' : P → PInfo} (h : Same info info') (b : P → Nat → ℝ) (G : List (Group P)) (y : P → Nat → ℝ) :
    total info' b G y = total info b G y := by
  unfold Marg.total
  simp only [h.lin]

theorem Same.evaluate {info info' : P → PInfo} (h : Same info info') (M : MargRes P) (x : P → Nat → ℝ) :
    evaluate info' M x = evaluate info M x := by
  unfold Marg.evaluate deltaChi
  simp only [h.minus]

omit [DecidableEq P] in
theorem lin_cons (info : P → PInfo) (f : Res ℝ P) (fs : List (Res ℝ P)) (δ : P → Nat → ℝ) :
    linCost info (f :: fs) δ = linCost info [f] δ + linCost info fs δ := by
  unfold linCost; simp

omit [DecidableEq P] in
theorem total_concat (info : P → PInfo) (b : P → Nat → ℝ) (G : List (Group P)) (g : Group P) (y : P → Nat → ℝ) :
    total info b (G ++ [g]) y = total info b G y + linCost info g.res (fun p a => y p a - (g.x p a - b p a)) := by
  unfold total; simp

omit [DecidableEq P] in
theorem allRes_concat (G : List (Group P)) (g : Group P) : allRes (G ++ [g]) = allRes G ++ g.res := by
  unfold allRes; simp

theorem total_congr (info : P → PInfo) (b : P → Nat → ℝ) (G : List (Group P)) (y y' : P → Nat → ℝ)
    (h : ∀ p, (∃ f ∈ allRes G, ∃ B, (p, B) ∈ f.blocks) → (info p).base.fixed = false → ∀ a < (info p).base.size, y p a = y' p a) :
    total info b G y = total info b G y' := by
  unfold total
  congr 1
  apply List.map_congr_left
  intro g hg
  apply linCost_congr
  rintro p ⟨f, hf, B, hB⟩ hfx a ha
  rw [h p ⟨f, List.mem_flatMap.mpr ⟨g, hg, hf⟩, B, hB⟩ hfx a ha]

/-- The increment of a value that did not move, or of a parameter without a quaternion. -/
theorem minus_moved (i : PInfo) (hg : PoseLike i → i.base.size = 6) (hg' : ¬PoseLike i → i.gsize = i.base.size)
    (x x0 : Nat → ℝ) (h : PoseLike i → x = x0) (a : Nat) (ha : a < i.base.size) :
    (minusOf i x x0)[a]? = some (x a - x0 a) := by
  unfold minusOf
  by_cases hp : PoseLike i
  · rw [(isPose_iff i).mpr hp, if_pos rfl, h hp]
    have := hg hp
    have hv : ∀ q : Quat ℝ, (q.mul q.inverse).x = 0 ∧ (q.mul q.inverse).y = 0 ∧ (q.mul q.inverse).z = 0 := by
      intro q
      by_cases hn : q.normSq > 0
      · simp only [Quat.inverse, Quat.mul, if_pos hn]
        refine ⟨?_, ?_, ?_⟩ <;> ring
      · simp only [Quat.inverse, Quat.mul, if_neg hn]
        refine ⟨?_, ?_, ?_⟩ <;> ring
    obtain ⟨h1, h2, h3⟩ := hv ⟨x0 6, x0 3, x0 4, x0 5⟩
    simp only [h1, h2, h3]
    have : a = 0 ∨ a = 1 ∨ a = 2 ∨ a = 3 ∨ a = 4 ∨ a = 5 := by omega
    rcases this with rfl | rfl | rfl | rfl | rfl | rfl <;> simp
  · rw [(isPose_false i).mpr hp]
    rw [if_neg (by decide)]
    rw [List.getElem?_map, List.getElem?_range (by rw [hg' hp]; exact ha)]
    rfl

/-- What the next marginalisation makes of the residual of the previous one. -/
theorem asRes_spec {eig : EigSolver} {info info' : P → PInfo} (hs : Same info info') {x0 : P → Nat → ℝ} {fs : List (Res ℝ P)}
    (hk : KnownTypes info fs) {M : MargRes P} {ps : List P} (h : marginalize eig info x0 fs = .ok (M, ps))
    (x : P → Nat → ℝ) (u : P → Nat → ℝ) (hu : IsIncrement info fs x x0 u) :
    ∃ R, asRes info' M x = .ok R ∧ R.blocks.map Prod.fst = M.remain ∧
      ∀ (δ : P → Nat → ℝ) (d : Nat → ℝ), (∀ p, Remaining info fs p → ∀ a < (info p).base.size,
          d (col M.index p - M.m + a) = u p a + δ p a) →
        linCost info' [R] δ = ∑ i, (M.r0 + M.J0 *ᵥ fun a : Fin M.r => d a) i ^ 2 := by
  have L := layout info fs
  obtain ⟨m1, m2, m3, m4, m5⟩ := marg_fields h
  obtain ⟨v, v1, v2, v3⟩ := deltaChi_spec hk M m1 m2 m3 m4 x
  rw [m5] at v3
  have hev : evaluate info' M x = .ok (M.r0 + M.J0 *ᵥ (fun a : Fin M.r => (v a).getD 0)) := by
    rw [hs.evaluate]
    unfold evaluate
    rw [v1]
    show (readAll M.r v >>= fun d => Except.ok (M.r0 + M.J0 *ᵥ d)) = _
    unfold readAll
    rw [if_pos (fun a : Fin M.r => v2 a a.2)]
    rfl
  let J : Nat → Nat → ℝ := fun k a => if h : k < M.r ∧ a < M.r then M.J0 ⟨k, h.1⟩ ⟨a, h.2⟩ else 0
  let B : P → Mat ℝ := fun p k a => if k < M.r ∧ a < (info' p).base.size then J k (col M.index p - M.m + a) else 0
  have hfit : ∀ p ∈ M.remain, col M.index p - M.m + (info p).base.size ≤ M.r := by
    intro p hp
    rw [m3] at hp
    have := L.remCol p hp
    rw [← m1, ← m2, ← m4] at this
    omega
  have hblock : ∀ p ∈ M.remain, blockOf info' M p = .ok (p, B p) := by
    intro p hp
    have hf := hfit p hp
    have hf' : col M.index p - M.m + (info' p).base.size ≤ M.r := by rw [(hs p).1]; exact hf
    unfold blockOf minJac
    rw [dif_pos hf']
    show Except.ok _ = Except.ok _
    congr 2
    funext k a
    by_cases hka : k < M.r ∧ a < (info' p).base.size
    · rw [dif_pos hka]
      show _ = if k < M.r ∧ a < (info' p).base.size then _ else _
      rw [if_pos hka]
      show _ = dite _ _ _
      rw [dif_pos ⟨hka.1, by omega⟩]
    · rw [dif_neg hka]
      exact (if_neg hka).symm
  have hmap : ∀ l : List P, (∀ p ∈ l, blockOf info' M p = .ok (p, B p)) → l.mapM (blockOf info' M) = .ok (l.map fun p => (p, B p)) := by
    intro l hl
    induction l with
    | nil => rfl
    | cons p l ih =>
      rw [List.mapM_cons, hl p (by simp), ih (fun q hq => hl q (by simp [hq]))]
      rfl
  refine ⟨⟨M.r, fun k => if h : k < M.r then (M.r0 + M.J0 *ᵥ (fun a : Fin M.r => (v a).getD 0)) ⟨k, h⟩ else 0,
    M.remain.map fun p => (p, B p)⟩, ?_, by simp [Function.comp_def], ?_⟩
  · unfold asRes
    rw [hev]
    show (M.remain.mapM (blockOf info' M) >>= _) = _
    rw [hmap _ hblock]
    rfl
  · intro δ d hd
    let w : Nat → ℝ := fun a => d a - (v a).getD 0
    have hw : ∀ p ∈ M.remain, ∀ a < (info p).base.size, w (col M.index p - M.m + a) = δ p a := by
      intro p hp a ha
      rw [m3] at hp
      have hR := ((L.remMem p).mp hp).1
      have e1 := (v3 p hR).2 a ha
      rw [hu p hR a ha] at e1
      show d _ - (v _).getD 0 = _
      rw [hd p hR a ha, e1]
      simp
    have hrow : ∀ k, k < M.r → (M.remain.map (fun p => if (info' p).base.fixed then 0
        else ∑ a ∈ range (info' p).base.size, B p k a * δ p a)).sum = ∑ a ∈ range M.r, J k a * w a := by
      intro k hk'
      have := sum_columns L (fun a => J k a * w a)
      rw [← m3, ← m4, ← m1, ← m2] at this
      rw [← this]
      congr 1
      apply List.map_congr_left
      intro p hp
      have hp' := hp
      rw [m3] at hp'
      have hfx : (info' p).base.fixed = false := by rw [(hs p).1]; exact ((L.remMem p).mp hp').1.2.2
      simp only [hfx, Bool.false_eq_true, if_false]
      rw [(hs p).1]
      apply sum_congr rfl
      intro a ha
      rw [mem_range] at ha
      rw [hw p hp a ha]
      congr 1
      show (if k < M.r ∧ a < (info' p).base.size then _ else _) = _
      rw [if_pos ⟨hk', by rw [(hs p).1]; exact ha⟩]
    unfold linCost
    simp only [List.map_cons, List.map_nil, List.sum_cons, List.sum_nil, add_zero, List.map_map, Function.comp_def]
    rw [Finset.sum_range]
    apply sum_congr rfl
    intro i _
    rw [hrow i i.2, dif_pos i.2, Finset.sum_range]
    congr 1
    simp only [Pi.add_apply, Matrix.mulVec, dotProduct]
    have : ∀ a : Fin M.r, J i a = M.J0 i a := by
      intro a
      show dite _ _ _ = _
      rw [dif_pos ⟨i.2, a.2⟩]
    simp only [this]
    rw [add_assoc, ← sum_add_distrib]
    congr 1
    apply sum_congr rfl
    intro a _
    show _ + M.J0 i a * (d a - (v a).getD 0) = _
    ring

/-- The invariant of the window. -/
structure Prior (eig : EigSolver) (b : P → Nat → ℝ) (G : List (Group P)) (info : P → PInfo) (x : P → Nat → ℝ) (M : MargRes P) : Prop where
  made : ∃ fs ps, marginalize eig info x fs = .ok (M, ps) ∧ KnownTypes info fs ∧
    ∀ p, Remaining info fs p ↔ Remaining info (allRes G) p
  known : KnownTypes info (allRes G)
  base : ∀ p, PoseLike (info p) → x p = b p
  least : ∃ c, ∀ d : Nat → ℝ, IsLeast {cost | ∃ y : P → Nat → ℝ, (∀ p, Remaining info (allRes G) p → ∀ a < (info p).base.size,
      y p a = d (col M.index p - M.m + a) + (x p a - b p a)) ∧ cost = total info b G y}
    (∑ i, (M.r0 + M.J0 *ᵥ fun a : Fin M.r => d a) i ^ 2 + c)

theorem Window.prior (eig : EigSolver) (he : IsEigSolver eig) {b : P → Nat → ℝ} {G : List (Group P)} {info : P → PInfo}
    {x : P → Nat → ℝ} {M : MargRes P} (h : Window eig b G info x M) : Prior eig b G info x M := by
  classical
  induction h with
  | @first info fs M ps hk hw h =>
    have hall : allRes [(⟨b, fs⟩ : Group P)] = fs := by simp [allRes]
    obtain ⟨c, hc⟩ := marg_core eig he info b fs hk M ps h hw
    refine ⟨⟨fs, ps, h, hk, by rw [hall]; exact fun _ => Iff.rfl⟩, by rw [hall]; exact hk, fun _ _ => rfl, c, ?_⟩
    intro d
    convert hc d using 1
    ext cost
    simp only [hall, sub_self, add_zero, total, List.map_cons, List.map_nil, List.sum_cons, List.sum_nil, sub_zero]
  | @next G info x M info' x' gs R M' ps hG hs hf hx hd hk hR hw h ih =>
    obtain ⟨⟨fs, ps0, hm, hk0, hrem⟩, hkG, hbase, c1, hc1⟩ := ih
    obtain ⟨m1, m2, m3, m4, m5⟩ := marg_fields hm
    have L := layout info fs
    have hknown : ∀ p, Remaining info (allRes G) p → (info p).base.kind ≠ .other ∧
        (PoseLike (info p) → (info p).base.size = 6) ∧ (¬PoseLike (info p) → (info p).gsize = (info p).base.size) := hkG
    have hu : IsIncrement info fs x' x (fun p a => x' p a - x p a) := by
      intro p hp a ha
      have hkn := hk0 p hp
      exact minus_moved _ hkn.2.1 hkn.2.2 _ _ (fun hq => by rw [hx p hq, hbase p hq]) a ha
    obtain ⟨R', hR', hRb, hRl⟩ := asRes_spec hs hk0 hm x' _ hu
    rw [hR] at hR'
    cases hR'
    -- which parameters remain
    have hmem : ∀ p, (∃ B, (p, B) ∈ R.blocks) ↔ Remaining info (allRes G) p := by
      intro p
      have h1 : (∃ B, (p, B) ∈ R.blocks) ↔ p ∈ M.remain := by
        rw [← hRb, List.mem_map]
        exact ⟨fun ⟨B, hB⟩ => ⟨_, hB, rfl⟩, fun ⟨e, he, hep⟩ => ⟨e.2, by rw [← hep]; exact he⟩⟩
      rw [h1, m3, L.remMem, ← hrem]
      exact ⟨fun q => q.1, fun q => ⟨q, (hk0 p q).1⟩⟩
    have hmarg : ∀ p, (info' p).marg = false → (info p).marg = false := by
      intro p hp
      by_contra hc
      rw [hf p (by simpa using hc)] at hp
      cases hp
    have hrem' : ∀ p, Remaining info' (R :: gs) p ↔ Remaining info' (allRes (G ++ [⟨x', gs⟩])) p := by
      intro p
      rw [allRes_concat]
      unfold Remaining
      constructor
      · rintro ⟨⟨f, hf', B, hB⟩, h2, h3⟩
        refine ⟨?_, h2, h3⟩
        rcases List.mem_cons.mp hf' with rfl | hf'
        · obtain ⟨⟨f, hf', B, hB⟩, -⟩ := (hmem p).mp ⟨B, hB⟩
          exact ⟨f, List.mem_append_left _ hf', B, hB⟩
        · exact ⟨f, List.mem_append_right _ hf', B, hB⟩
      · rintro ⟨⟨f, hf', B, hB⟩, h2, h3⟩
        refine ⟨?_, h2, h3⟩
        rcases List.mem_append.mp hf' with hf' | hf'
        · obtain ⟨B, hB⟩ := (hmem p).mpr ⟨⟨f, hf', B, hB⟩, hmarg p h2, by rw [← (hs p).1]; exact h3⟩
          exact ⟨R, by simp, B, hB⟩
        · exact ⟨f, by simp [hf'], B, hB⟩
    have hk' : KnownTypes info' (R :: gs) := by
      rintro p ⟨⟨f, hf', B, hB⟩, h2, h3⟩
      rcases List.mem_cons.mp hf' with rfl | hf'
      · have := hknown p ((hmem p).mp ⟨B, hB⟩)
        rw [hs.pose, (hs p).1, (hs p).2]
        exact this
      · exact hk p ⟨⟨f, hf', B, hB⟩, h2, h3⟩
    have hkG' : KnownTypes info' (allRes (G ++ [⟨x', gs⟩])) := fun p hp => hk' p ((hrem' p).mpr hp)
    obtain ⟨c2, hc2⟩ := marg_core eig he info' x' (R :: gs) hk' M' ps h hw
    refine ⟨⟨R :: gs, ps, h, hk', hrem'⟩, hkG', fun p hp => hx p ((hs.pose p).mp hp), c1 + c2, ?_⟩
    intro d
    -- the cost of the previous residual is the least cost of the previous groups
    have hstep : ∀ δ : P → Nat → ℝ, IsLeast {cost | ∃ y : P → Nat → ℝ, (∀ p, Remaining info (allRes G) p →
        ∀ a < (info p).base.size, y p a = δ p a + (x' p a - b p a)) ∧ cost = total info b G y} (linCost info' [R] δ + c1) := by
      intro δ
      obtain ⟨z, hz⟩ := exists_vec L (fun p a => x' p a - x p a + δ p a)
      have hz' : ∀ p, Remaining info fs p → ∀ a < (info p).base.size,
          (fun a => z (M.m + a)) (col M.index p - M.m + a) = x' p a - x p a + δ p a := by
        intro p hp a ha
        have hpr := (L.remMem p).mpr ⟨hp, (hk0 p hp).1⟩
        have h1 := L.remCol p hpr
        rw [← m1, ← m4] at h1
        have h2 := hz p (.inr hpr) a ha
        rw [← m4] at h2
        rw [← h2]
        simp only
        congr 1
        omega
      rw [hRl δ (fun a => z (M.m + a)) hz']
      have := hc1 (fun a => z (M.m + a))
      convert this using 1
      ext cost
      simp only [Set.mem_ofPred_eq]
      have hiff : ∀ y : P → Nat → ℝ, (∀ p, Remaining info (allRes G) p → ∀ a < (info p).base.size,
          y p a = δ p a + (x' p a - b p a)) ↔ (∀ p, Remaining info (allRes G) p → ∀ a < (info p).base.size,
          y p a = z (M.m + (col M.index p - M.m + a)) + (x p a - b p a)) := by
        intro y
        constructor
        · intro hy p hp a ha
          have h3 := hz' p ((hrem p).mpr hp) a ha
          simp only at h3
          rw [h3, hy p hp a ha]
          ring
        · intro hy p hp a ha
          have h3 := hz' p ((hrem p).mpr hp) a ha
          simp only at h3
          rw [hy p hp a ha, h3]
          ring
      simp only [hiff]
    -- both together
    have hset : ∀ cost, (∃ y : P → Nat → ℝ, (∀ p, Remaining info' (allRes (G ++ [⟨x', gs⟩])) p → ∀ a < (info' p).base.size,
          y p a = d (col M'.index p - M'.m + a) + (x' p a - b p a)) ∧ cost = total info' b (G ++ [⟨x', gs⟩]) y) ↔
        ∃ δ y : P → Nat → ℝ, (∀ p, Remaining info' (R :: gs) p → ∀ a < (info' p).base.size, δ p a = d (col M'.index p - M'.m + a)) ∧
          (∀ p, Remaining info (allRes G) p → ∀ a < (info p).base.size, y p a = δ p a + (x' p a - b p a)) ∧
          cost = total info b G y + linCost info' gs δ := by
      intro cost
      constructor
      · rintro ⟨y, hy, rfl⟩
        refine ⟨fun p a => y p a - (x' p a - b p a), y, ?_, ?_, ?_⟩
        · intro p hp a ha
          simp only
          rw [hy p ((hrem' p).mp hp) a ha]
          ring
        · intro p _ a _
          simp only
          ring
        · rw [total_concat, hs.total]
      · rintro ⟨δ, y, hδ, hy, rfl⟩
        refine ⟨fun p a => if Marginalised info (allRes G) p then y p a else δ p a + (x' p a - b p a), ?_, ?_⟩
        · intro p hp a ha
          simp only
          rw [if_neg, hδ p ((hrem' p).mpr hp) a ha]
          intro hc
          have := hmarg p hp.2.1
          rw [hc.2] at this
          cases this
        · rw [total_concat, hs.total]
          congr 1
          · apply total_congr
            intro p hp hfx a ha
            by_cases hmg : Marginalised info (allRes G) p
            · rw [if_pos hmg]
            · rw [if_neg hmg]
              refine hy p ⟨hp, ?_, hfx⟩ a ha
              by_contra hc
              exact hmg ⟨hp, by simpa using hc⟩
          · apply linCost_congr
            intro p hp _ a _
            simp only
            rw [if_neg (fun hc => hd p hc hp)]
            ring
    obtain ⟨⟨δ0, hδ0, hcost0⟩, hmin⟩ := hc2 d
    rw [lin_cons] at hcost0
    constructor
    · show ∃ y, _
      rw [hset]
      obtain ⟨⟨y0, hy0, hy1⟩, -⟩ := hstep δ0
      refine ⟨δ0, y0, hδ0, hy0, ?_⟩
      linarith
    · rintro cost hc
      have hc' := (hset cost).mp hc
      obtain ⟨δ, y, hδ, hy, rfl⟩ := hc'
      have h1 := (hstep δ).2 ⟨y, hy, rfl⟩
      have h2 := hmin ⟨δ, hδ, rfl⟩
      rw [lin_cons] at h2
      linarith

/-! ## Property -/

/-- **C145.**  After any number of marginalisations in a sliding window, for all values `z` of the parameters that remain, the sum
of squares of the last residual is, up to a constant, the least first-order cost of *all* residuals marginalised so far
over all moves of *all* parameters marginalised so far: marginalising one by one loses nothing. -/
theorem C145_window (eig : EigSolver) (he : IsEigSolver eig) {b : P → Nat → ℝ} {G : List (Group P)} {info : P → PInfo}
    {x : P → Nat → ℝ} {M : MargRes P} (h : Window eig b G info x M) :
    (∀ p, p ∈ M.remain ↔ Remaining info (allRes G) p) ∧
    ∃ c, ∀ z : P → Nat → ℝ, ∃ e, evaluate info M z = .ok e ∧
      IsLeast {cost | ∃ y, IsIncrement info (allRes G) z b y ∧ cost = total info b G y} (∑ i, e i ^ 2 + c) := by
  obtain ⟨⟨fs, ps, hm, hk, hrem⟩, hkG, hbase, c, hc⟩ := h.prior eig he
  obtain ⟨m1, m2, m3, m4, m5⟩ := marg_fields hm
  have L := layout info fs
  refine ⟨?_, c, ?_⟩
  · intro p
    rw [m3, L.remMem, hrem]
    exact ⟨fun q => q.1, fun q => ⟨q, (hkG p q).1⟩⟩
  intro z
  obtain ⟨v, v1, v2, v3⟩ := deltaChi_spec hk M m1 m2 m3 m4 z
  rw [m5] at v3
  refine ⟨M.r0 + M.J0 *ᵥ (fun a : Fin M.r => (v a).getD 0), ?_, ?_⟩
  · unfold evaluate
    rw [v1]
    show (readAll M.r v >>= fun d => Except.ok (M.r0 + M.J0 *ᵥ d)) = _
    unfold readAll
    rw [if_pos (fun a : Fin M.r => v2 a a.2)]
    rfl
  · convert hc (fun a => (v a).getD 0) using 1
    ext cost
    simp only [Set.mem_ofPred_eq]
    have hinc : ∀ p, Remaining info (allRes G) p → ∀ a < (info p).base.size,
        (minusOf (info p) (z p) (b p))[a]? = some ((v (col M.index p - M.m + a)).getD 0 + (x p a - b p a)) := by
      intro p hp a ha
      have hkn := hkG p hp
      have e1 := (v3 p ((hrem p).mpr hp)).2 a ha
      have e2 := (v3 p ((hrem p).mpr hp)).1
      by_cases hq : PoseLike (info p)
      · rw [hbase p hq] at e1 e2 ⊢
        rw [e1, List.getElem?_eq_getElem (by omega)]
        simp
      · have h1 : ∀ y : Nat → ℝ, (minusOf (info p) (z p) y)[a]? = some (z p a - y a) :=
          fun y => minus_moved _ hkn.2.1 hkn.2.2 _ _ (fun h => absurd h hq) a ha
        rw [h1] at e1
        rw [h1, e1]
        simp
    have hiff : ∀ y : P → Nat → ℝ, IsIncrement info (allRes G) z b y ↔ ∀ p, Remaining info (allRes G) p →
        ∀ a < (info p).base.size, y p a = (v (col M.index p - M.m + a)).getD 0 + (x p a - b p a) := by
      intro y
      constructor
      · intro hy p hp a ha
        have := hy p hp a ha
        rw [hinc p hp a ha] at this
        injection this with this
        exact this.symm
      · intro hy p hp a ha
        rw [hinc p hp a ha, hy p hp a ha]
    simp only [hiff]

/-- C145: with the same linearisation points, marginalising group after group leaves the same cost as marginalising everything
at once, up to a constant. -/
theorem C145_together (eig : EigSolver) (he : IsEigSolver eig) {b : P → Nat → ℝ} {G : List (Group P)} {info : P → PInfo}
    {x : P → Nat → ℝ} {M M' : MargRes P} {ps : List P} (h : Window eig b G info x M) (hb : ∀ g ∈ G, g.x = b)
    (h' : marginalize eig info b (allRes G) = .ok (M', ps)) (hw : WellScaled eig info (allRes G)) :
    ∃ c, ∀ z : P → Nat → ℝ, ∃ e e', evaluate info M z = .ok e ∧ evaluate info M' z = .ok e' ∧
      ∑ i, e i ^ 2 = ∑ i, e' i ^ 2 + c := by
  obtain ⟨-, c1, h1⟩ := C145_window eig he h
  obtain ⟨-, -, c2, h2⟩ := C45_marginalize_partial eig he info b (allRes G) (h.prior eig he).known M' ps h' hw.1 hw.2
  refine ⟨c2 - c1, fun z => ?_⟩
  obtain ⟨e, he1, hl1⟩ := h1 z
  obtain ⟨e', he2, hl2⟩ := h2 z
  refine ⟨e, e', he1, he2, ?_⟩
  have : ∀ y, total info b G y = linCost info (allRes G) y := by
    intro y
    unfold total allRes
    clear h h' hw h1 h2 hl1 hl2
    induction G with
    | nil => rfl
    | cons g G ih =>
      rw [List.map_cons, List.sum_cons, ih (fun q hq => hb q (by simp [hq])), hb g (by simp), List.flatMap_cons]
      simp only [sub_self, sub_zero]
      unfold linCost
      rw [List.map_append, List.sum_append]
  simp only [this] at hl1
  have := hl1.unique hl2
  linarith

end Yac.Marg
