import Verif.Solver.Model
import Mathlib.Data.List.Basic
import Mathlib.Data.List.Nodup
import Mathlib.Data.List.Induction
import Mathlib.Algebra.BigOperators.Group.List.Basic
import Mathlib.Tactic.Linarith

namespace Yac.Solver

variable {K P : Type} [DecidableEq P]

/-- All tracked parameters in column order. -/
def Track.all (t : Track P) : List P := t.pose ++ t.sb ++ t.cam ++ t.ext ++ t.fid

/-- The list of the given kind. -/
def Track.ofKind (t : Track P) : Kind → List P
  | .pose => t.pose | .sb => t.sb | .camera => t.cam | .extrinsics => t.ext
  | .fiducial => t.fid | .other => []

theorem track_eq (info : P → ParamInfo) (blocks : List (List P)) :
    track info blocks = blocks.flatten.foldl (trackStep info) ⟨[], [], [], [], [], [], 0⟩ := by
  rw [track, List.foldl_flatten]

structure TInv (info : P → ParamInfo) (t : Track P) (ps : List P) : Prop where
  seen : ∀ p, p ∈ t.seen ↔ p ∈ ps
  mem : ∀ k p, p ∈ t.ofKind k ↔ p ∈ ps ∧ (info p).fixed = false ∧ (info p).kind = k ∧ k ≠ .other
  nd : ∀ k, (t.ofKind k).Nodup
  len : (∀ p ∈ ps, (info p).fixed = false → (info p).kind ≠ .other) →
    t.len = (t.all.map (fun p => (info p).size)).sum

theorem trackStep_inv (info : P → ParamInfo) (t : Track P) (ps : List P) (p : P)
    (h : TInv info t ps) : TInv info (trackStep info t p) (ps ++ [p]) := by
  unfold trackStep
  by_cases hs : p ∈ t.seen
  · rw [if_pos hs]
    have hp := (h.seen p).mp hs
    refine ⟨fun q => ?_, fun k q => ?_, h.nd, fun ho => h.len (fun q hq => ho q (by simp [hq]))⟩
    · rw [h.seen]; simp only [List.mem_append, List.mem_singleton]
      constructor
      · exact Or.inl
      · rintro (h | rfl) <;> assumption
    · rw [h.mem]; simp only [List.mem_append, List.mem_singleton]
      constructor
      · rintro ⟨a, b⟩; exact ⟨Or.inl a, b⟩
      · rintro ⟨a | rfl, b⟩ <;> [exact ⟨a, b⟩; exact ⟨hp, b⟩]
  · rw [if_neg hs]
    have hp : p ∉ ps := fun h' => hs ((h.seen p).mpr h')
    have hpk : ∀ k, p ∉ t.ofKind k := fun k hk => hp ((h.mem k p).mp hk).1
    by_cases hf : (info p).fixed = true
    · simp only [hf, if_true]
      refine ⟨fun q => ?_, fun k q => ?_, ?_, ?_⟩
      · simp only [List.mem_cons, h.seen, List.mem_append, List.mem_singleton]; tauto
      · have : q ∈ t.ofKind k ↔ _ := h.mem k q
        rw [show Track.ofKind _ k = t.ofKind k by cases k <;> rfl, this]
        simp only [List.mem_append, List.mem_singleton]
        constructor
        · rintro ⟨a, b⟩; exact ⟨Or.inl a, b⟩
        · rintro ⟨a | rfl, b⟩
          · exact ⟨a, b⟩
          · simp [hf] at b
      · intro k; rw [show Track.ofKind _ k = t.ofKind k by cases k <;> rfl]; exact h.nd k
      · intro ho; exact h.len (fun q hq => ho q (by simp [hq]))
    · simp only [hf, Bool.false_eq_true, if_false]
      have hf' : (info p).fixed = false := by simpa using hf
      have seen' : ∀ q, q ∈ p :: t.seen ↔ q ∈ ps ++ [p] := by
        intro q; simp only [List.mem_cons, h.seen, List.mem_append, List.mem_singleton]; tauto
      have memL : ∀ k q, (info p).kind ≠ k →
          (q ∈ t.ofKind k ↔ q ∈ ps ++ [p] ∧ (info q).fixed = false ∧ (info q).kind = k ∧ k ≠ .other) := by
        intro k q hk
        rw [h.mem]; simp only [List.mem_append, List.mem_singleton]
        constructor
        · rintro ⟨a, b⟩; exact ⟨Or.inl a, b⟩
        · rintro ⟨a | rfl, b⟩
          · exact ⟨a, b⟩
          · exact absurd b.2.1 hk
      have memR : ∀ k q, (info p).kind = k → k ≠ .other →
          (q ∈ t.ofKind k ++ [p] ↔ q ∈ ps ++ [p] ∧ (info q).fixed = false ∧ (info q).kind = k ∧ k ≠ .other) := by
        intro k q hk hko
        rw [List.mem_append, h.mem]; simp only [List.mem_append, List.mem_singleton]
        constructor
        · rintro (⟨a, b⟩ | rfl)
          · exact ⟨Or.inl a, b⟩
          · exact ⟨Or.inr rfl, hf', hk, hko⟩
        · rintro ⟨a | rfl, b⟩
          · exact Or.inl ⟨a, b⟩
          · exact Or.inr rfl
      have ndR : ∀ k, (t.ofKind k ++ [p]).Nodup := by
        intro k
        rw [List.nodup_append]
        refine ⟨h.nd k, by simp, ?_⟩
        intro a ha b hb
        simp at hb; subst hb; rintro rfl; exact hpk k ha
      have lenOld : ∀ ho : (∀ q ∈ ps ++ [p], (info q).fixed = false → (info q).kind ≠ .other),
          t.len = (t.all.map (fun p => (info p).size)).sum :=
        fun ho => h.len (fun q hq => ho q (by simp [hq]))
      cases hk : (info p).kind
      case other =>
        refine ⟨seen', fun k q => ?_, ?_, ?_⟩
        · by_cases hko : k = .other
          · subst hko; simp [Track.ofKind]
          · rw [show Track.ofKind _ k = t.ofKind k by cases k <;> rfl]
            exact memL k q (by rw [hk]; exact fun h => hko h.symm)
        · intro k; rw [show Track.ofKind _ k = t.ofKind k by cases k <;> rfl]; exact h.nd k
        · intro ho; exact absurd hk (ho p (by simp) hf')
      all_goals
        refine ⟨seen', fun k q => ?_, ?_, ?_⟩
        · cases k <;> first
            | exact memL .pose q (by rw [hk]; simp)
            | exact memL .sb q (by rw [hk]; simp)
            | exact memL .camera q (by rw [hk]; simp)
            | exact memL .extrinsics q (by rw [hk]; simp)
            | exact memL .fiducial q (by rw [hk]; simp)
            | exact memL .other q (by rw [hk]; simp)
            | exact memR .pose q hk (by simp)
            | exact memR .sb q hk (by simp)
            | exact memR .camera q hk (by simp)
            | exact memR .extrinsics q hk (by simp)
            | exact memR .fiducial q hk (by simp)
            | exact memR .other q hk (by simp)
        · intro k; cases k <;> first
            | exact ndR .pose
            | exact ndR .sb
            | exact ndR .camera
            | exact ndR .extrinsics
            | exact ndR .fiducial
            | exact ndR .other
            | exact h.nd .pose
            | exact h.nd .sb
            | exact h.nd .camera
            | exact h.nd .extrinsics
            | exact h.nd .fiducial
            | exact h.nd .other
        · intro ho
          have := lenOld ho
          simp only [Track.all, List.map_append, List.sum_append, List.map_cons, List.map_nil,
            List.sum_cons, List.sum_nil] at this ⊢
          omega

theorem track_inv (info : P → ParamInfo) (blocks : List (List P)) :
    TInv info (track info blocks) blocks.flatten := by
  rw [track_eq]
  induction blocks.flatten using List.reverseRecOn with
  | nil =>
    refine ⟨by simp, ?_, ?_, by simp [Track.all]⟩
    · intro k p; cases k <;> simp [Track.ofKind]
    · intro k; cases k <;> simp [Track.ofKind]
  | append_singleton ps p ih =>
    rw [List.foldl_append]
    exact trackStep_inv info _ ps p ih

theorem track_all_mem (info : P → ParamInfo) (blocks : List (List P)) (p : P) :
    p ∈ (track info blocks).all ↔ p ∈ blocks.flatten ∧ (info p).fixed = false ∧
      (info p).kind ≠ .other := by
  have h := (track_inv info blocks).mem
  have e : p ∈ (track info blocks).all ↔ ∃ k, p ∈ (track info blocks).ofKind k := by
    simp only [Track.all, List.mem_append]
    constructor
    · rintro ((((h | h) | h) | h) | h)
      exacts [⟨.pose, h⟩, ⟨.sb, h⟩, ⟨.camera, h⟩, ⟨.extrinsics, h⟩, ⟨.fiducial, h⟩]
    · rintro ⟨k, hk⟩; cases k <;> simp_all [Track.ofKind]
  rw [e]
  constructor
  · rintro ⟨k, hk⟩; obtain ⟨a, b, c, d⟩ := (h k p).mp hk; exact ⟨a, b, by rw [c]; exact d⟩
  · rintro ⟨a, b, c⟩; exact ⟨_, (h _ p).mpr ⟨a, b, rfl, c⟩⟩

theorem track_all_nodup (info : P → ParamInfo) (blocks : List (List P)) :
    (track info blocks).all.Nodup := by
  have h := track_inv info blocks
  have hd : ∀ k k' a b, k ≠ k' → a ∈ (track info blocks).ofKind k →
      b ∈ (track info blocks).ofKind k' → a ≠ b := by
    intro k k' a b hne ha hb he
    subst he
    exact hne (((h.mem k a).mp ha).2.2.1.symm.trans ((h.mem k' a).mp hb).2.2.1)
  simp only [Track.all, List.nodup_append, List.mem_append]
  refine ⟨⟨⟨⟨h.nd .pose, h.nd .sb, fun a ha b hb => hd .pose .sb a b (by simp) ha hb⟩,
    h.nd .camera, ?_⟩, h.nd .extrinsics, ?_⟩, h.nd .fiducial, ?_⟩
  · rintro a (ha | ha) b hb
    exacts [hd .pose .camera a b (by simp) ha hb, hd .sb .camera a b (by simp) ha hb]
  · rintro a ((ha | ha) | ha) b hb
    exacts [hd .pose .extrinsics a b (by simp) ha hb, hd .sb .extrinsics a b (by simp) ha hb,
      hd .camera .extrinsics a b (by simp) ha hb]
  · rintro a (((ha | ha) | ha) | ha) b hb
    exacts [hd .pose .fiducial a b (by simp) ha hb, hd .sb .fiducial a b (by simp) ha hb,
      hd .camera .fiducial a b (by simp) ha hb, hd .extrinsics .fiducial a b (by simp) ha hb]

theorem evalOrder_ok {info : P → ParamInfo} {blocks : List (List P)} {o : List (P × Nat)} {n : Nat}
    (h : evalOrder info blocks = .ok (o, n)) :
    o = assign info 0 (track info blocks).all ∧ n = (track info blocks).len := by
  unfold evalOrder at h
  simp only at h
  split at h
  · cases h
  · cases h; exact ⟨rfl, rfl⟩

/-- `evalOrder` succeeds exactly when a camera parameter is optimised. -/
theorem evalOrder_isOk (info : P → ParamInfo) (blocks : List (List P)) :
    (∃ o n, evalOrder info blocks = .ok (o, n)) ↔
      ∃ bs ∈ blocks, ∃ p ∈ bs, (info p).fixed = false ∧ (info p).kind = .camera := by
  have hm := fun p => (track_inv info blocks).mem .camera p
  unfold evalOrder
  simp only [Track.ofKind] at hm ⊢
  split
  · rename_i hc
    rw [hc] at hm
    constructor
    · rintro ⟨o, n, h⟩; cases h
    · rintro ⟨bs, hbs, p, hp, hf, hk⟩
      have := (hm p).mpr ⟨List.mem_flatten.mpr ⟨bs, hbs, hp⟩, hf, hk, by simp⟩
      simp at this
  · rename_i p l hc
    rw [hc] at hm
    constructor
    · intro _
      obtain ⟨hp, hf, hk, _⟩ := (hm p).mp (by simp)
      obtain ⟨bs, hbs, hp⟩ := List.mem_flatten.mp hp
      exact ⟨bs, hbs, p, hp, hf, hk⟩
    · intro _; exact ⟨_, _, rfl⟩

/-! ## Columns -/

theorem col_cons (q : P) (i : Nat) (o : List (P × Nat)) (p : P) :
    col ((q, i) :: o) p = if q = p then i else col o p := by
  unfold col
  rw [List.find?_cons]
  by_cases h : q = p <;> simp [h]

theorem assign_keys (info : P → ParamInfo) (l : List P) (i : Nat) :
    (assign info i l).map Prod.fst = l := by
  induction l generalizing i with
  | nil => rfl
  | cons p l ih => simp [assign, ih]

/-- Column range of `p` contains `a`. -/
def InCol (info : P → ParamInfo) (c : P → Nat) (p : P) (a : Nat) : Prop :=
  c p ≤ a ∧ a < c p + (info p).size

instance (info : P → ParamInfo) (c : P → Nat) (p : P) (a : Nat) : Decidable (InCol info c p a) := by
  unfold InCol; infer_instance

theorem assign_bounds (info : P → ParamInfo) (l : List P) (i : Nat) (p : P) (hp : p ∈ l) :
    i ≤ col (assign info i l) p ∧
    col (assign info i l) p + (info p).size ≤ i + (l.map (fun p => (info p).size)).sum := by
  induction l generalizing i with
  | nil => simp at hp
  | cons q l ih =>
    rw [assign, col_cons]
    simp only [List.map_cons, List.sum_cons]
    by_cases h : q = p
    · subst h; simp only [if_true]; omega
    · rw [if_neg h]
      have hp' : p ∈ l := by
        rcases List.mem_cons.mp hp with h' | h'
        · exact absurd h'.symm h
        · exact h'
      have := ih (i + (info q).size) hp'
      omega

theorem assign_cover (info : P → ParamInfo) (l : List P) (hn : l.Nodup) (i a : Nat) (h1 : i ≤ a)
    (h2 : a < i + (l.map (fun p => (info p).size)).sum) :
    ∃ p ∈ l, InCol info (col (assign info i l)) p a := by
  induction l generalizing i with
  | nil => simp at h2; omega
  | cons q l ih =>
    obtain ⟨hq, hn'⟩ := List.nodup_cons.mp hn
    simp only [List.map_cons, List.sum_cons] at h2
    by_cases ha : a < i + (info q).size
    · refine ⟨q, by simp, ?_⟩
      rw [InCol, assign, col_cons, if_pos rfl]; exact ⟨h1, ha⟩
    · obtain ⟨p, hp, hc⟩ := ih hn' (i + (info q).size) (by omega) (by omega)
      refine ⟨p, by simp [hp], ?_⟩
      rw [InCol, assign, col_cons, if_neg (by rintro rfl; exact hq hp)]; exact hc

theorem assign_disjoint (info : P → ParamInfo) (l : List P) (i a : Nat) (p q : P) (hp : p ∈ l)
    (hq : q ∈ l) (h1 : InCol info (col (assign info i l)) p a)
    (h2 : InCol info (col (assign info i l)) q a) : p = q := by
  induction l generalizing i with
  | nil => simp at hp
  | cons x l ih =>
    have step : ∀ y, y ∈ x :: l → y ≠ x →
        y ∈ l ∧ col (assign info i (x :: l)) y = col (assign info (i + (info x).size) l) y := by
      intro y hy hne
      refine ⟨by rcases List.mem_cons.mp hy with h | h; exact absurd h hne; exact h, ?_⟩
      rw [assign, col_cons, if_neg (fun h => hne h.symm)]
    have hx : col (assign info i (x :: l)) x = i := by rw [assign, col_cons, if_pos rfl]
    by_cases hpx : p = x
    · by_cases hqx : q = x
      · rw [hpx, hqx]
      · exfalso
        obtain ⟨hq', hcq⟩ := step q hq hqx
        have := assign_bounds info l (i + (info x).size) q hq'
        rw [InCol, hpx, hx] at h1
        rw [InCol, hcq] at h2
        omega
    · obtain ⟨hp', hcp⟩ := step p hp hpx
      by_cases hqx : q = x
      · exfalso
        have := assign_bounds info l (i + (info x).size) p hp'
        rw [InCol, hqx, hx] at h2
        rw [InCol, hcp] at h1
        omega
      · obtain ⟨hq', hcq⟩ := step q hq hqx
        rw [InCol, hcp] at h1
        rw [InCol, hcq] at h2
        exact ih (i + (info x).size) hp' hq' h1 h2

theorem find_isSome_iff (o : List (P × Nat)) (p : P) :
    (o.find? (fun e => e.1 = p)).isSome ↔ p ∈ o.map Prod.fst := by
  rw [List.find?_isSome]; simp

theorem touchAll_keys (info : P → ParamInfo) (ps : List P) (o : List (P × Nat)) (p : P) :
    p ∈ (touchAll info o ps).map Prod.fst ↔ p ∈ o.map Prod.fst ∨ (p ∈ ps ∧ (info p).fixed = false) := by
  unfold touchAll
  induction ps generalizing o with
  | nil => simp
  | cons q ps ih =>
    rw [List.foldl_cons, ih]
    by_cases hf : (info q).fixed = true
    · rw [if_pos hf]; simp only [List.mem_cons]
      constructor
      · tauto
      · rintro (h | ⟨rfl | h, h'⟩)
        · exact Or.inl h
        · simp [hf] at h'
        · exact Or.inr ⟨h, h'⟩
    · rw [if_neg hf]
      by_cases hs : (o.find? (fun e => e.1 = q)).isSome = true
      · rw [if_pos hs]
        rw [find_isSome_iff] at hs
        simp only [List.mem_cons]
        constructor
        · tauto
        · rintro (h | ⟨rfl | h, h'⟩)
          · exact Or.inl h
          · exact Or.inl hs
          · exact Or.inr ⟨h, h'⟩
      · rw [if_neg hs]
        simp only [List.map_append, List.map_cons, List.map_nil, List.mem_append, List.mem_cons,
          List.not_mem_nil, or_false]
        have hf' : (info q).fixed = false := by simpa using hf
        constructor
        · rintro ((h | rfl) | h)
          · exact Or.inl h
          · exact Or.inr ⟨Or.inl rfl, hf'⟩
          · exact Or.inr ⟨Or.inr h.1, h.2⟩
        · rintro (h | ⟨rfl | h, h'⟩)
          · exact Or.inl (Or.inl h)
          · exact Or.inl (Or.inr rfl)
          · exact Or.inr ⟨h, h'⟩

theorem touchAll_nodup (info : P → ParamInfo) (ps : List P) (o : List (P × Nat))
    (h : (o.map Prod.fst).Nodup) : ((touchAll info o ps).map Prod.fst).Nodup := by
  unfold touchAll
  induction ps generalizing o with
  | nil => exact h
  | cons q ps ih =>
    rw [List.foldl_cons]
    apply ih
    split_ifs with h1 h2
    · exact h
    · exact h
    · rw [find_isSome_iff] at h2
      rw [List.map_append, List.nodup_append]
      refine ⟨h, by simp, ?_⟩
      intro a ha b hb
      simp at hb; subst hb; rintro rfl; exact h2 ha

/-- Nothing is added when every optimised parameter has a column. -/
theorem touchAll_eq (info : P → ParamInfo) (ps : List P) (o : List (P × Nat))
    (h : ∀ p ∈ ps, (info p).fixed = false → p ∈ o.map Prod.fst) : touchAll info o ps = o := by
  unfold touchAll
  induction ps with
  | nil => rfl
  | cons q ps ih =>
    rw [List.foldl_cons]
    have : (if (info q).fixed = true then o
        else if (o.find? (fun e => e.1 = q)).isSome = true then o else o ++ [(q, 0)]) = o := by
      split_ifs with h1 h2
      · rfl
      · rfl
      · rw [find_isSome_iff] at h2
        exact absurd (h q (by simp) (by simpa using h1)) h2
    rw [this]
    exact ih (fun p hp => h p (by simp [hp]))

/-! ## Update, cache, restore -/

theorem col_of_mem (o : List (P × Nat)) (hn : (o.map Prod.fst).Nodup) (p : P) (i : Nat)
    (h : (p, i) ∈ o) : col o p = i := by
  induction o with
  | nil => simp at h
  | cons e o ih =>
    obtain ⟨q, j⟩ := e
    rw [List.map_cons, List.nodup_cons] at hn
    rw [col_cons]
    rcases List.mem_cons.mp h with h' | h'
    · cases h'; simp
    · rw [if_neg]
      · exact ih hn.2 h'
      · rintro rfl; exact hn.1 (List.mem_map.mpr ⟨_, h', rfl⟩)

theorem update_apply {V : Type} (info : P → ParamInfo) (plus : P → V → List K → V)
    (o : List (P × Nat)) (hn : (o.map Prod.fst).Nodup) (dx : Nat → K) (σ : Vals P V) (p : P) :
    update info plus o dx σ p =
      if p ∈ o.map Prod.fst then plus p (σ p) (segment dx (col o p) (info p).size) else σ p := by
  unfold update
  induction o generalizing σ with
  | nil => simp
  | cons e o ih =>
    obtain ⟨q, j⟩ := e
    rw [List.map_cons, List.nodup_cons] at hn
    rw [List.foldl_cons, ih hn.2, col_cons]
    by_cases hpq : p = q
    · subst hpq
      rw [if_neg hn.1]; simp
    · simp only [List.map_cons, List.mem_cons, hpq, false_or, if_false]
      rw [if_neg (show ¬ q = p from fun h => hpq h.symm)]

theorem restore_cache {V : Type} (params : List P) (σ σ' : Vals P V)
    (h : ∀ q, q ∉ params → σ' q = σ q) : restoreParams (cacheParams params σ) σ' = σ := by
  unfold restoreParams cacheParams
  induction params generalizing σ' with
  | nil => funext q; exact h q (by simp)
  | cons p ps ih =>
    rw [List.map_cons, List.foldl_cons]
    apply ih
    intro q hq
    by_cases hqp : q = p
    · subst hqp; simp
    · simp only [hqp, if_false]; exact h q (by simp [hqp, hq])

end Yac.Solver
