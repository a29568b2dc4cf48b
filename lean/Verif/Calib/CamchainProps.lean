import Verif.Calib.CamchainModel
import Verif.Geom.RotProps
import Verif.AprilGrid.Lemmas

/-!
# C50: the camera chain answers extrinsics queries
-/

namespace Yac.Calib
open Matrix Yac.Geom

variable {K : Type} [CommRing K]

/-! ## Specification: the history of insertions -/

/-- One call `insert(i, j, T)`. -/
abbrev Edge (K : Type) := Int × Int × Mat4 K

/-- The state after a history of `insert` calls, oldest first. -/
def inserts (h : List (Edge K)) : Camchain K :=
  h.foldl (fun c e => c.insert e.1 e.2.1 e.2.2) {}

/-- The transform known for the ordered pair: that of the first call naming the pair in
either order, inverted when the order is reversed. -/
def known (h : List (Edge K)) (i j : Int) : Option (Mat4 K) :=
  match h with
  | [] => none
  | e :: h =>
    if e.1 = i ∧ e.2.1 = j then some e.2.2
    else if e.1 = j ∧ e.2.1 = i then some (tfInv e.2.2)
    else known h i j

/-- Camera `i` occurs in some call. -/
def Mentioned (h : List (Edge K)) (i : Int) : Prop := ∃ e ∈ h, e.1 = i ∨ e.2.1 = i

/-- Cameras joined by a chain of inserted pairs. -/
inductive Connected (h : List (Edge K)) : Int → Int → Prop
  | refl (i : Int) : Connected h i i
  | step {i j k : Int} : (known h i j).isSome → Connected h j k → Connected h i k

/-! ## The state after a history -/

theorem subMap_setExt (i j : Int) (T : Mat4 K) (e : List (Int × List (Int × Mat4 K))) (k : Int) :
    subMap k (setExt i j T e) = if k = i then SMap.set j T (subMap i e) else subMap k e := by
  unfold subMap setExt
  rw [SMap.find_set]
  split_ifs <;> rfl

theorem find_setExt (i j : Int) (T : Mat4 K) (e : List (Int × List (Int × Mat4 K))) (a b : Int) :
    SMap.find b (subMap a (setExt i j T e)) =
      if a = i ∧ b = j then some T else SMap.find b (subMap a e) := by
  rw [subMap_setExt]
  by_cases ha : a = i
  · subst ha
    simp only [if_true, SMap.find_set, true_and]
  · simp [ha]

theorem some_setExt (i j : Int) (T : Mat4 K) (e : List (Int × List (Int × Mat4 K))) (a : Int) :
    (SMap.find a (setExt i j T e)).isSome = true ↔ a = i ∨ (SMap.find a e).isSome = true := by
  unfold setExt
  rw [SMap.find_set]
  by_cases ha : a = i <;> simp [ha]

theorem contains_eq (c : Camchain K) (i j : Int) :
    c.contains i j = (SMap.find j (subMap i c.exts)).isSome := by
  unfold Camchain.contains subMap
  cases SMap.find i c.exts <;> simp [SMap.find]

/-- What the state holds after a history, at distinct indices. -/
def Holds (h : List (Edge K)) (c : Camchain K) : Prop :=
  (∀ a b : Int, a ≠ b → SMap.find b (subMap a c.exts) = known h a b) ∧
  (∀ a : Int, (SMap.find a c.exts).isSome = true ↔ Mentioned h a) ∧
  (∀ a : Int, (SMap.find a (subMap a c.exts)).isSome = true ↔ ∃ e ∈ h, e.1 = a ∧ e.2.1 = a)

theorem known_append (h : List (Edge K)) (e : Edge K) (i j : Int) :
    known (h ++ [e]) i j = match known h i j with
      | some T => some T
      | none => if e.1 = i ∧ e.2.1 = j then some e.2.2
                else if e.1 = j ∧ e.2.1 = i then some (tfInv e.2.2) else none := by
  induction h with
  | nil => simp [known]
  | cons d h ih =>
    simp only [List.cons_append, known]
    split_ifs <;> simp_all

theorem known_symm_isSome (h : List (Edge K)) (i j : Int) :
    (known h i j).isSome = (known h j i).isSome := by
  induction h with
  | nil => rfl
  | cons d h ih =>
    simp only [known]
    by_cases c1 : d.1 = i ∧ d.2.1 = j
    · by_cases c2 : d.1 = j ∧ d.2.1 = i
      · rw [if_pos c1, if_pos c2]
      · rw [if_pos c1, if_neg c2, if_pos c1]; rfl
    · by_cases c2 : d.1 = j ∧ d.2.1 = i
      · rw [if_neg c1, if_pos c2, if_pos c2]; rfl
      · rw [if_neg c1, if_neg c2, if_neg c2, if_neg c1, ih]

theorem mentioned_of_known (h : List (Edge K)) (i j : Int) (hk : (known h i j).isSome) :
    Mentioned h i ∧ Mentioned h j := by
  induction h with
  | nil => simp [known] at hk
  | cons d h ih =>
    simp only [known] at hk
    split_ifs at hk with h1 h2
    · exact ⟨⟨d, by simp, Or.inl h1.1⟩, ⟨d, by simp, Or.inr h1.2⟩⟩
    · exact ⟨⟨d, by simp, Or.inr h2.2⟩, ⟨d, by simp, Or.inl h2.1⟩⟩
    · obtain ⟨⟨e, he, h3⟩, ⟨f, hf, h4⟩⟩ := ih hk
      exact ⟨⟨e, by simp [he], h3⟩, ⟨f, by simp [hf], h4⟩⟩

theorem holds_insert (h : List (Edge K)) (c : Camchain K) (e : Edge K) (hc : Holds h c) :
    Holds (h ++ [e]) (c.insert e.1 e.2.1 e.2.2) := by
  obtain ⟨h1, h2, h3⟩ := hc
  obtain ⟨i, j, T⟩ := e
  simp only
  unfold Camchain.insert
  by_cases hcon : c.contains i j = true
  · rw [if_pos hcon]
    rw [contains_eq] at hcon
    by_cases hij : i = j
    · subst hij
      obtain ⟨e0, he0, he1, he2⟩ := (h3 i).mp hcon
      refine ⟨fun a b hab => ?_, fun a => ?_, fun a => ?_⟩
      · rw [known_append, h1 a b hab]
        cases known h a b with
        | some T => rfl
        | none =>
          have n1 : ¬ (i = a ∧ i = b) := fun hh => hab (hh.1 ▸ hh.2)
          have n2 : ¬ (i = b ∧ i = a) := fun hh => hab (hh.2 ▸ hh.1)
          simp only [n1, n2, if_false]
      · rw [h2 a]
        constructor
        · rintro ⟨e, he, hh⟩; exact ⟨e, by simp [he], hh⟩
        · rintro ⟨e, he, hh⟩
          rcases List.mem_append.mp he with he | he
          · exact ⟨e, he, hh⟩
          · simp only [List.mem_singleton] at he
            subst he
            exact ⟨e0, he0, by rcases hh with hh | hh <;> simp_all⟩
      · rw [h3 a]
        constructor
        · rintro ⟨e, he, hh⟩; exact ⟨e, by simp [he], hh⟩
        · rintro ⟨e, he, hh⟩
          rcases List.mem_append.mp he with he | he
          · exact ⟨e, he, hh⟩
          · simp only [List.mem_singleton] at he
            subst he
            exact ⟨e0, he0, by simp_all⟩
    · rw [h1 i j hij] at hcon
      refine ⟨fun a b hab => ?_, fun a => ?_, fun a => ?_⟩
      · rw [known_append, h1 a b hab]
        cases hk : known h a b with
        | some T => rfl
        | none =>
          have n1 : ¬ (i = a ∧ j = b) := by
            rintro ⟨rfl, rfl⟩; simp [hk] at hcon
          have n2 : ¬ (i = b ∧ j = a) := by
            rintro ⟨rfl, rfl⟩; rw [known_symm_isSome] at hcon; simp [hk] at hcon
          simp [n1, n2]
      · rw [h2 a]
        constructor
        · rintro ⟨e, he, hh⟩; exact ⟨e, by simp [he], hh⟩
        · rintro ⟨e, he, hh⟩
          rcases List.mem_append.mp he with he | he
          · exact ⟨e, he, hh⟩
          · simp only [List.mem_singleton] at he
            subst he
            have hm := mentioned_of_known h i j hcon
            rcases hh with rfl | rfl
            · exact hm.1
            · exact hm.2
      · rw [h3 a]
        constructor
        · rintro ⟨e, he, hh⟩; exact ⟨e, by simp [he], hh⟩
        · rintro ⟨e, he, hh⟩
          rcases List.mem_append.mp he with he | he
          · exact ⟨e, he, hh⟩
          · simp only [List.mem_singleton] at he
            subst he
            exact absurd (hh.1.trans hh.2.symm) hij
  · rw [if_neg hcon]
    rw [contains_eq] at hcon
    refine ⟨fun a b hab => ?_, fun a => ?_, fun a => ?_⟩
    · simp only [find_setExt]
      rw [known_append, h1 a b hab]
      by_cases hij : i = j
      · subst hij
        have n1 : ¬ (a = i ∧ b = i) := fun hh => hab (hh.1.trans hh.2.symm)
        have n2 : ¬ (i = a ∧ i = b) := fun hh => hab (hh.1 ▸ hh.2)
        have n3 : ¬ (i = b ∧ i = a) := fun hh => hab (hh.2 ▸ hh.1)
        simp only [n1, n2, n3, if_false]
        cases known h a b <;> rfl
      · rw [h1 i j hij] at hcon
        have hcon : known h i j = none := by simpa using hcon
        have hcon' : known h j i = none := by
          have := known_symm_isSome h i j; rw [hcon] at this; simpa using this.symm
        by_cases n1 : a = j ∧ b = i
        · obtain ⟨rfl, rfl⟩ := n1
          simp [hcon', hij, Ne.symm hij]
        · by_cases n2 : a = i ∧ b = j
          · obtain ⟨rfl, rfl⟩ := n2
            simp [hcon, hij, Ne.symm hij]
          · have n3 : ¬ (i = a ∧ j = b) := fun hh => n2 ⟨hh.1.symm, hh.2.symm⟩
            have n4 : ¬ (i = b ∧ j = a) := fun hh => n1 ⟨hh.2.symm, hh.1.symm⟩
            simp only [n1, n2, n3, n4, if_false]
            cases known h a b <;> rfl
    · simp only [some_setExt, h2 a]
      constructor
      · rintro (rfl | rfl | ⟨e, he, hh⟩)
        · exact ⟨(i, a, T), by simp, Or.inr rfl⟩
        · exact ⟨(a, j, T), by simp, Or.inl rfl⟩
        · exact ⟨e, by simp [he], hh⟩
      · rintro ⟨e, he, hh⟩
        rcases List.mem_append.mp he with he | he
        · exact Or.inr (Or.inr ⟨e, he, hh⟩)
        · simp only [List.mem_singleton] at he
          subst he
          rcases hh with rfl | rfl <;> simp
    · simp only [find_setExt]
      by_cases n1 : a = j ∧ a = i
      · rw [if_pos n1]
        simp only [Option.isSome_some, true_iff]
        exact ⟨(i, j, T), by simp, n1.2.symm, n1.1.symm⟩
      · have n2 : ¬ (a = i ∧ a = j) := fun hh => n1 ⟨hh.2, hh.1⟩
        rw [if_neg n1, if_neg n2, h3 a]
        constructor
        · rintro ⟨e, he, hh⟩; exact ⟨e, by simp [he], hh⟩
        · rintro ⟨e, he, hh⟩
          rcases List.mem_append.mp he with he | he
          · exact ⟨e, he, hh⟩
          · simp only [List.mem_singleton] at he
            subst he
            exact absurd ⟨hh.1.symm, hh.2.symm⟩ n2

theorem holds_inserts (h : List (Edge K)) : Holds h (inserts h) := by
  induction h using List.reverseRecOn with
  | nil =>
    refine ⟨fun a b _ => rfl, fun a => ?_, fun a => ?_⟩
    · simp [inserts, SMap.find, Mentioned]
    · simp [inserts, SMap.find, subMap]
  | append_singleton h e ih =>
    have : inserts (h ++ [e]) = (inserts h).insert e.1 e.2.1 e.2.2 := by
      simp [inserts, List.foldl_append]
    rw [this]
    exact holds_insert h _ e ih

theorem mem_pushAdj (i j : Int) (l : List (Int × List Int)) (a b : Int) :
    b ∈ subMap a (pushAdj i j l) ↔ (a = i ∧ b = j) ∨ b ∈ subMap a l := by
  unfold subMap pushAdj
  rw [SMap.find_set]
  by_cases ha : a = i
  · subst ha
    simp [subMap, or_comm]
  · simp [ha]

theorem adj_inserts (h : List (Edge K)) (a b : Int) :
    b ∈ subMap a (inserts h).adj ↔ (SMap.find b (subMap a (inserts h).exts)).isSome := by
  induction h using List.reverseRecOn generalizing a b with
  | nil => simp [inserts, SMap.find, subMap]
  | append_singleton h e ih =>
    have : inserts (h ++ [e]) = (inserts h).insert e.1 e.2.1 e.2.2 := by
      simp [inserts, List.foldl_append]
    rw [this]
    unfold Camchain.insert
    split_ifs
    · exact ih a b
    · simp only [mem_pushAdj, find_setExt, ih]
      by_cases h1 : a = e.2.1 ∧ b = e.1
      · simp [h1]
      · by_cases h2 : a = e.1 ∧ b = e.2.1
        · rw [if_neg h1, if_pos h2]
          exact ⟨fun _ => rfl, fun _ => Or.inr (Or.inl h2)⟩
        · simp only [h1, h2, if_false, false_or]

theorem bfs_throws (adj : List (Int × List Int)) (target i : Int) (fuel : Nat) (hf : 0 < fuel) :
    bfsLoop adj target fuel { queue := [i] } = .error .exn := by
  obtain ⟨n, rfl⟩ := Nat.exists_eq_succ_of_ne_zero hf.ne'
  rfl

/-! ## C50 -/

/-- **C50 (what every query answers, for every history of insertions).**  Asking for a camera
against itself gives the identity; a camera never mentioned gives -1 with the output left
alone; a pair that was inserted, in either order, gives 0 and the transform of its first
insertion, inverted if the query is in the opposite order; every other pair makes the
search throw. -/
theorem C50_find_partial (h : List (Edge K)) (fuel : Nat) (hf : 0 < fuel) (i j : Int) :
    (i = j → (inserts h).find fuel i j = .ok (0, some 1)) ∧
    (i ≠ j → ¬ (Mentioned h i ∧ Mentioned h j) →
      (inserts h).find fuel i j = .ok (-1, none)) ∧
    (∀ T, i ≠ j → known h i j = some T → (inserts h).find fuel i j = .ok (0, some T)) ∧
    (i ≠ j → Mentioned h i → Mentioned h j → known h i j = none →
      (inserts h).find fuel i j = .error .exn) := by
  obtain ⟨h1, h2, h3⟩ := holds_inserts h
  unfold Camchain.find
  have key : ((SMap.find i (inserts h).exts).isNone || (SMap.find j (inserts h).exts).isNone)
      = true ↔ ¬ (Mentioned h i ∧ Mentioned h j) := by
    rw [← h2 i, ← h2 j]
    cases SMap.find i (inserts h).exts <;> cases SMap.find j (inserts h).exts <;> simp
  refine ⟨fun e => by rw [if_pos e], fun e hm => ?_, fun T e hk => ?_, fun e hi hj hk => ?_⟩
  · rw [if_neg e, if_pos (key.mpr hm)]
  · have hm := mentioned_of_known h i j (by rw [hk]; rfl)
    have hfi : SMap.find j (subMap i (inserts h).exts) = some T := by rw [h1 i j e, hk]
    rw [if_neg e, if_neg (fun hh => key.mp hh hm), contains_eq, hfi]
    rfl
  · rw [if_neg e, if_neg (fun hh => key.mp hh ⟨hi, hj⟩), contains_eq, h1 i j e, hk]
    simp only [Option.isSome_none, Bool.false_eq_true, if_false]
    rw [bfs_throws _ _ _ _ hf]
    rfl

/-- A rigid body transform. -/
def Rigid (T : Mat4 K) : Prop := ∃ C r, C * Cᵀ = 1 ∧ T = tf C r

theorem Rigid.inv_inv {T : Mat4 K} (hT : Rigid T) : tfInv (tfInv T) = T ∧
    T * tfInv T = 1 ∧ tfInv T * T = 1 ∧ Rigid (tfInv T) := by
  obtain ⟨C, r, hC, rfl⟩ := hT
  have hC' : Cᵀ * C = 1 := mul_eq_one_comm.mp hC
  have e : tfInv (tf C r) = tf Cᵀ (-(Cᵀ *ᵥ r)) := by
    unfold tfInv; rw [tfRot_tf, tfTrans_tf]; simp [Matrix.neg_mulVec]
  have e2 : tfInv (tf Cᵀ (-(Cᵀ *ᵥ r))) = tf C r := by
    unfold tfInv; rw [tfRot_tf, tfTrans_tf]
    simp [Matrix.neg_mulVec, Matrix.mulVec_neg, Matrix.mulVec_mulVec, hC]
  refine ⟨by rw [e, e2], ?_, ?_, Cᵀ, _, by simpa using hC', e⟩
  · rw [e, tf_mul, hC]; simp [Matrix.mulVec_neg, Matrix.mulVec_mulVec, hC, tf_one]
  · rw [e, tf_mul, hC']; simp [tf_one]

/-- **C50 (opposite queries are inverse).**  If the inserted transforms are rigid and a query
between two cameras succeeds, the opposite query succeeds with the inverse transform. -/
theorem C50_opposite (h : List (Edge K)) (hr : ∀ e ∈ h, Rigid e.2.2) (fuel : Nat) (hf : 0 < fuel)
    (i j : Int) (T : Mat4 K) (hq : (inserts h).find fuel i j = .ok (0, some T)) :
    ∃ T', (inserts h).find fuel j i = .ok (0, some T') ∧ T * T' = 1 ∧ T' * T = 1 := by
  by_cases hij : i = j
  · subst hij
    rw [(C50_find_partial h fuel hf i i).1 rfl] at hq ⊢
    simp only [Except.ok.injEq, Prod.mk.injEq, Option.some.injEq, true_and] at hq
    exact ⟨1, rfl, by simp [← hq], by simp [← hq]⟩
  · obtain ⟨-, q2, q3, q4⟩ := C50_find_partial h fuel hf i j
    obtain ⟨-, p2, p3, p4⟩ := C50_find_partial h fuel hf j i
    by_cases hm : Mentioned h i ∧ Mentioned h j
    · cases hk : known h i j with
      | none => rw [q4 hij hm.1 hm.2 hk] at hq; cases hq
      | some U =>
        rw [q3 U hij hk] at hq
        simp only [Except.ok.injEq, Prod.mk.injEq, Option.some.injEq, true_and] at hq
        subst hq
        have key : ∀ h' : List (Edge K), (∀ e ∈ h', Rigid e.2.2) → ∀ U, known h' i j = some U →
            Rigid U ∧ known h' j i = some (tfInv U) := by
          intro h'
          induction h' with
          | nil => intro _ U hU; simp [known] at hU
          | cons d h' ih =>
            intro hd U hU
            have hd0 := hd d (by simp)
            simp only [known] at hU ⊢
            split_ifs at hU with c1 c2
            · have : ¬ (d.1 = j ∧ d.2.1 = i) := fun c => hij (c1.1.symm.trans c.1)
              rw [if_neg this, if_pos c1]
              obtain rfl := Option.some.inj hU
              exact ⟨hd0, rfl⟩
            · rw [if_pos c2]
              obtain rfl := Option.some.inj hU
              exact ⟨hd0.inv_inv.2.2.2, by rw [hd0.inv_inv.1]⟩
            · rw [if_neg c2, if_neg c1]
              exact ih (fun e he => hd e (by simp [he])) U hU
        obtain ⟨hU, hk'⟩ := key h hr U hk
        exact ⟨_, p3 _ (Ne.symm hij) hk', hU.inv_inv.2.1, hU.inv_inv.2.2.1⟩
    · rw [q2 hij hm] at hq
      simp at hq

/-- **C50 (adjacency lists).**  After every history of insertions the neighbours recorded for a
camera are exactly the cameras inserted together with it, in either order. -/
theorem C50_adjacency (h : List (Edge K)) (a b : Int) (hab : a ≠ b) :
    b ∈ subMap a (inserts h).adj ↔
      ∃ e ∈ h, (e.1 = a ∧ e.2.1 = b) ∨ (e.1 = b ∧ e.2.1 = a) := by
  rw [adj_inserts, (holds_inserts h).1 a b hab]
  induction h with
  | nil => simp [known]
  | cons e h ih =>
    simp only [known]
    by_cases c1 : e.1 = a ∧ e.2.1 = b
    · rw [if_pos c1]
      exact ⟨fun _ => ⟨e, by simp, Or.inl c1⟩, fun _ => rfl⟩
    · rw [if_neg c1]
      by_cases c2 : e.1 = b ∧ e.2.1 = a
      · rw [if_pos c2]
        exact ⟨fun _ => ⟨e, by simp, Or.inr c2⟩, fun _ => rfl⟩
      · rw [if_neg c2, ih]
        simp [c1, c2]

example : (subMap 1 (inserts (K := ℚ) [(0, 1, 1), (2, 1, 1), (0, 2, 1)]).adj) = [0, 2] := by
  decide +kernel

/-- **C50 refuted.**  Two cameras connected through a third one: the query throws
`std::out_of_range` instead of returning the composed transform. -/
theorem C50_chain_refuted (T : Mat4 K) (fuel : Nat) (hf : 0 < fuel) :
    Connected [(0, 1, T), (1, 2, T)] 0 2 ∧
    (inserts [(0, 1, T), (1, 2, T)]).find fuel 0 2 = .error .exn := by
  refine ⟨.step (j := 1) (by simp [known]) (.step (j := 2) (by simp [known]) (.refl 2)), ?_⟩
  refine (C50_find_partial _ fuel hf 0 2).2.2.2 (by decide) ⟨(0, 1, T), by simp⟩
    ⟨(1, 2, T), by simp⟩ (by simp [known])

/-- **C50 refuted.**  Two separate groups of cameras: the query throws as well, where an
error code is promised. -/
theorem C50_disconnected_refuted (T : Mat4 K) (fuel : Nat) (hf : 0 < fuel) :
    (inserts [(0, 1, T), (2, 3, T)]).find fuel 0 2 = .error .exn :=
  (C50_find_partial _ fuel hf 0 2).2.2.2 (by decide) ⟨(0, 1, T), by simp⟩
    ⟨(2, 3, T), by simp⟩ (by simp [known])

/-! ## The constructor -/

/-- The usable observations of a frame: every camera whose grid is flagged detected or has at
least 12 detections. -/
def Usable {K : Type} (g : ChainGrid K) : Prop := g.detected = true ∨ 12 ≤ g.nbDetections

instance {K : Type} (g : ChainGrid K) : Decidable (Usable g) := by unfold Usable; infer_instance

/-- The relative pose of two cameras seeing the target: `T_CiF * inv(T_CjF)`. -/
def relPose : Option (Mat4 K) → Option (Mat4 K) → Option (Mat4 K)
  | some Ti, some Tj => some (Ti * tfInv Tj)
  | _, _ => none

/-- The pairs a frame offers: its first usable camera with each other usable one; the relative
pose is absent when one of the two camera poses could not be estimated. -/
def offered (frame : List (Int × ChainGrid K)) : List (Int × Int × Option (Mat4 K)) :=
  match frame.filter (fun p => decide (Usable p.2)) with
  | [] => []
  | (ci, gi) :: l => l.map (fun p => (ci, p.1, relPose gi.pose p.2.pose))

/-- The offered pairs with a relative pose. -/
def solved (l : List (Int × Int × Option (Mat4 K))) : List (Edge K) :=
  l.filterMap (fun e => e.2.2.map (fun T => (e.1, e.2.1, T)))

theorem getGrids_eq (l : List (Int × ChainGrid K)) :
    getGrids l = l.filter (fun p => decide (Usable p.2)) := by
  unfold getGrids
  refine List.filter_congr (fun p _ => ?_)
  rcases p with ⟨i, d, n, o⟩
  rw [Bool.eq_iff_iff, decide_eq_true_iff]
  cases d <;> simp [Usable, not_lt]

theorem inserts_append (h : List (Edge K)) (e : Edge K) :
    inserts (h ++ [e]) = (inserts h).insert e.1 e.2.1 e.2.2 := by
  simp [inserts, List.foldl_append]

theorem insert_contained (c : Camchain K) (i j : Int) (T : Mat4 K) (hc : c.contains i j = true) :
    c.insert i j T = c := by unfold Camchain.insert; rw [if_pos hc]

theorem chainFrame_spec (base : Int) (g : ChainGrid K) (l : List (Int × ChainGrid K))
    (h : List (Edge K)) (c' : Camchain K)
    (hok : chainFrame base g l (inserts h) = .ok c') :
    c' = inserts (h ++ solved (l.map (fun p => (base, p.1, relPose g.pose p.2.pose)))) ∧
      (∀ p ∈ l, base ≠ p.1 → (known (h ++ solved (l.map
        (fun p => (base, p.1, relPose g.pose p.2.pose)))) base p.1).isSome) := by
  have kmono : ∀ (h ext : List (Edge K)) (a b : Int), (known h a b).isSome →
      (known (h ++ ext) a b).isSome := by
    intro h ext a b hk
    induction h with
    | nil => simp [known] at hk
    | cons d h ih2 =>
      simp only [List.cons_append, known] at hk ⊢
      split_ifs at hk ⊢ <;> simp_all
  induction l generalizing h with
  | nil =>
    simp only [chainFrame, Except.ok.injEq] at hok
    exact ⟨by simp [← hok, solved], by simp⟩
  | cons p l ih =>
    obtain ⟨cj, gj⟩ := p
    simp only [chainFrame] at hok
    split_ifs at hok with hc
    · have ins : ∃ x : List (Edge K), x = solved [(base, cj, relPose g.pose gj.pose)] ∧
          inserts (h ++ x) = inserts h := by
        refine ⟨_, rfl, ?_⟩
        cases relPose g.pose gj.pose with
        | none => simp [solved]
        | some T =>
          have : solved [(base, cj, some T)] = [((base, cj, T) : Edge K)] := by simp [solved]
          rw [this, inserts_append, insert_contained _ _ _ _ hc]
      obtain ⟨x, hx, hins⟩ := ins
      rw [← hins] at hok
      obtain ⟨e1, e2⟩ := ih _ hok
      have sp : solved (List.map (fun p => (base, p.1, relPose g.pose p.2.pose)) ((cj, gj) :: l)) =
          x ++ solved (l.map (fun p => (base, p.1, relPose g.pose p.2.pose))) := by
        rw [hx]; simp only [solved, List.map_cons, ← List.filterMap_append, List.singleton_append]
      rw [sp, ← List.append_assoc]
      refine ⟨e1, fun p hp hb => ?_⟩
      rcases List.mem_cons.mp hp with rfl | hp
      · rw [contains_eq, (holds_inserts h).1 base cj hb] at hc
        exact kmono _ _ _ _ (kmono h _ _ _ hc)
      · exact e2 p hp hb
    · split at hok
      · rename_i Ti Tj hTi hTj
        rw [← inserts_append h (base, cj, Ti * tfInv Tj)] at hok
        obtain ⟨e1, e2⟩ := ih _ hok
        have sp : solved (List.map (fun p => (base, p.1, relPose g.pose p.2.pose)) ((cj, gj) :: l))
            = [((base, cj, Ti * tfInv Tj) : Edge K)] ++
              solved (l.map (fun p => (base, p.1, relPose g.pose p.2.pose))) := by
          simp [solved, hTi, hTj, relPose]
        rw [sp, ← List.append_assoc]
        refine ⟨e1, fun p hp hb => ?_⟩
        rcases List.mem_cons.mp hp with rfl | hp
        · refine kmono _ _ _ _ ?_
          rw [known_append]
          cases known h base cj <;> simp
        · exact e2 p hp hb
      · cases hok

theorem build_spec (data : List (List (Int × ChainGrid K))) (h : List (Edge K)) (c : Camchain K)
    (hok : Camchain.build data (inserts h) = .ok c) :
    c = inserts (h ++ solved (data.flatMap offered)) ∧
    (∀ e ∈ data.flatMap offered, e.1 ≠ e.2.1 →
      (known (h ++ solved (data.flatMap offered)) e.1 e.2.1).isSome) := by
  have kmono : ∀ (h ext : List (Edge K)) (a b : Int), (known h a b).isSome →
      (known (h ++ ext) a b).isSome := by
    intro h ext a b hk
    induction h with
    | nil => simp [known] at hk
    | cons d h ih2 =>
      simp only [List.cons_append, known] at hk ⊢
      split_ifs at hk ⊢ <;> simp_all
  induction data generalizing h with
  | nil =>
    simp only [Camchain.build, Except.ok.injEq] at hok
    exact ⟨by simp [← hok, solved], by simp⟩
  | cons frame rest ih =>
    have sp : solved ((frame :: rest).flatMap offered) =
        solved (offered frame) ++ solved (rest.flatMap offered) := by
      simp [solved, List.flatMap_cons, List.filterMap_append]
    have skip : offered frame = [] → Camchain.build rest (inserts h) = .ok c →
        c = inserts (h ++ solved ((frame :: rest).flatMap offered)) ∧
        (∀ e ∈ (frame :: rest).flatMap offered, e.1 ≠ e.2.1 →
          (known (h ++ solved ((frame :: rest).flatMap offered)) e.1 e.2.1).isSome) := by
      intro h0 hr
      have : (frame :: rest).flatMap offered = rest.flatMap offered := by
        simp [List.flatMap_cons, h0]
      rw [this]
      exact ih h hr
    simp only [Camchain.build] at hok
    split at hok
    · rename_i hg
      rw [getGrids_eq] at hg
      exact skip (by simp [offered, hg]) hok
    · rename_i hg
      rw [getGrids_eq] at hg
      exact skip (by simp [offered, hg]) hok
    · rename_i ci gi l _ hg
      rw [getGrids_eq] at hg
      have hfe : offered frame = l.map (fun p => (ci, p.1, relPose gi.pose p.2.pose)) := by
        simp only [offered, hg]
      cases hcf : chainFrame ci gi l (inserts h) with
      | error x => rw [hcf] at hok; cases hok
      | ok c1 =>
        rw [hcf] at hok
        replace hok : Camchain.build rest c1 = .ok c := hok
        obtain ⟨a1, a2⟩ := chainFrame_spec ci gi l h c1 hcf
        rw [← hfe] at a1 a2
        rw [a1] at hok
        obtain ⟨b1, b2⟩ := ih _ hok
        rw [sp, ← List.append_assoc]
        refine ⟨b1, fun e he hb => ?_⟩
        rcases List.mem_append.mp (by simpa only [List.flatMap_cons] using he) with he | he
        · rw [hfe] at he
          obtain ⟨p, hp, rfl⟩ := List.mem_map.mp he
          exact kmono _ _ _ _ (a2 p hp hb)
        · exact b2 e he hb

/-- **C50 (the chain built from camera data).**  When the constructor succeeds, the chain is
the one obtained by inserting, frame by frame, the relative pose between the first usable
camera and each other usable camera of the frame; and every such pair of every frame is
answered with code 0 and the relative pose of the first frame that offers it. -/
theorem C50_build (data : List (List (Int × ChainGrid K))) (c : Camchain K)
    (hok : Camchain.build data {} = .ok c) :
    c = inserts (solved (data.flatMap offered)) ∧
    (∀ e ∈ data.flatMap offered, e.1 ≠ e.2.1 → ∀ fuel, 0 < fuel →
      ∃ T, known (solved (data.flatMap offered)) e.1 e.2.1 = some T ∧
        c.find fuel e.1 e.2.1 = .ok (0, some T)) := by
  obtain ⟨h1, h2⟩ := build_spec data [] c hok
  rw [List.nil_append] at h1 h2
  refine ⟨h1, fun e he hb fuel hf => ?_⟩
  obtain ⟨T, hT⟩ := Option.isSome_iff_exists.mp (h2 e he hb)
  exact ⟨T, hT, by rw [h1]; exact (C50_find_partial _ fuel hf _ _).2.2.1 T hb hT⟩

/-- **C50 (the constructor).**  It fails only with the fatal error, and does not fail when
every usable observation yields a pose. -/
theorem C50_build_ok (data : List (List (Int × ChainGrid K))) :
    (∀ x, Camchain.build data ({} : Camchain K) = .error x → x = .fatal) ∧
    ((∀ f ∈ data, ∀ p ∈ f, Usable p.2 → p.2.pose.isSome) →
      ∃ c, Camchain.build data ({} : Camchain K) = .ok c) := by
  have f1 : ∀ (b : Int) (g : ChainGrid K) (l : List (Int × ChainGrid K)) (c : Camchain K) (x : Fault),
      chainFrame b g l c = .error x → x = .fatal := by
    intro b g l
    induction l with
    | nil => intro c x hx; cases hx
    | cons p l ih =>
      intro c x hx
      obtain ⟨cj, gj⟩ := p
      simp only [chainFrame] at hx
      split_ifs at hx
      · exact ih _ _ hx
      · split at hx
        · exact ih _ _ hx
        · cases hx; rfl
  have f2 : ∀ (b : Int) (g : ChainGrid K) (l : List (Int × ChainGrid K)) (c : Camchain K),
      g.pose.isSome → (∀ p ∈ l, p.2.pose.isSome) → ∃ c', chainFrame b g l c = .ok c' := by
    intro b g l
    induction l with
    | nil => intro c _ _; exact ⟨c, rfl⟩
    | cons p l ih =>
      intro c hg hl
      obtain ⟨cj, gj⟩ := p
      obtain ⟨Ti, hTi⟩ := Option.isSome_iff_exists.mp hg
      obtain ⟨Tj, hTj⟩ := Option.isSome_iff_exists.mp (hl (cj, gj) (by simp))
      simp only [chainFrame]
      split_ifs
      · exact ih c hg (fun p hp => hl p (by simp [hp]))
      · simp only at hTj
        rw [hTi, hTj]
        exact ih _ hg (fun p hp => hl p (by simp [hp]))
  generalize ({} : Camchain K) = c0
  refine ⟨?_, ?_⟩
  · induction data generalizing c0 with
    | nil => intro x hx; cases hx
    | cons frame rest ih =>
      intro x hx
      simp only [Camchain.build] at hx
      split at hx
      · exact ih _ _ hx
      · exact ih _ _ hx
      · rename_i ci gi l _ hg
        cases hcf : chainFrame ci gi l c0 with
        | error y => rw [hcf] at hx; cases hx; exact f1 _ _ _ _ _ hcf
        | ok c1 => rw [hcf] at hx; exact ih c1 _ hx
  · induction data generalizing c0 with
    | nil => intro _; exact ⟨c0, rfl⟩
    | cons frame rest ih =>
      intro hp
      have hp' : ∀ f ∈ rest, ∀ p ∈ f, Usable p.2 → p.2.pose.isSome :=
        fun f hf => hp f (by simp [hf])
      simp only [Camchain.build]
      split
      · exact ih _ hp'
      · exact ih _ hp'
      · rename_i ci gi l _ hg
        have hu : ∀ p ∈ (ci, gi) :: l, p.2.pose.isSome := by
          intro p hpm
          rw [← hg, getGrids_eq, List.mem_filter] at hpm
          exact hp frame (by simp) p hpm.1 (by simpa using hpm.2)
        obtain ⟨c1, hc1⟩ := f2 ci gi l c0 (hu (ci, gi) (by simp)) (fun p hp => hu p (by simp [hp]))
        rw [hc1]
        exact ih c1 hp'

/-! Witnesses. -/

/-- Three cameras seen pairwise: 0-1, 0-2 in one frame; the query 1-2 is not answered. -/
example : ∃ c : Camchain ℚ, Camchain.build
    [[(0, ⟨true, 20, some 1⟩), (1, ⟨false, 12, some 1⟩), (2, ⟨true, 3, some 1⟩), (3, ⟨false, 11, none⟩)]]
    {} = .ok c ∧ (c.find 5 0 1).toOption.map Prod.fst = some 0 ∧
      (c.find 5 2 0).toOption.map Prod.fst = some 0 ∧
      (c.find 5 0 3).toOption.map Prod.fst = some (-1) ∧ c.find 5 1 2 = .error .exn := by
  refine ⟨_, rfl, by rfl, by rfl, by rfl, by rfl⟩

example : Rigid (tf !![0, -1, 0; 1, 0, 0; 0, 0, (1 : ℚ)] ![1, 2, 3]) :=
  ⟨_, _, by ext i j; fin_cases i <;> fin_cases j <;>
    simp [Matrix.mul_apply, Fin.sum_univ_succ], rfl⟩

example : known [((0 : Int), (1 : Int), (1 : Mat4 ℚ)), (1, 0, 2)] 1 0 = some (tfInv 1) := by
  simp [known]

end Yac.Calib
