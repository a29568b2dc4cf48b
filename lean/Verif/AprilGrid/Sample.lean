import Verif.AprilGrid.Reads
import Mathlib.Data.List.Perm.Subperm

/-! Lemmas about `sample`. -/

namespace Yac.AprilGrid
open Spec
variable {K : Type} [Field K]
variable {ts : Int} {rows cols : Nat} {size spacing : K} {m : CMap K} {extra : Nat} {g : Grid K}

/-- The output vectors that list the entries `L`. -/
def measOf (cols : Nat) (size spacing : K) (L : List ((Int × Int) × (K × K))) : Meas K :=
  ⟨L.map (fun e => e.1.1), L.map (fun e => e.1.2), L.map (fun e => e.2),
    L.map (fun e => boardAt cols size spacing e.1)⟩

/-- Loop invariant: the outputs list entries of the grid with distinct corners; they are
exactly the drawn corners that are held. -/
structure SInv (cols : Nat) (size spacing : K) (H : List ((Int × Int) × (K × K)))
    (L : List ((Int × Int) × (K × K))) (s : SampleState K) : Prop where
  out : s.out = measOf cols size spacing L
  nodup : (L.map Prod.fst).Nodup
  sub : ∀ e ∈ L, e ∈ H
  seen : ∀ e ∈ L, e.1 ∈ s.seen
  full : ∀ e ∈ H, e.1 ∈ s.seen → e ∈ L

theorem step_inv (h : Core ts rows cols size spacing m extra g) (rand : Nat → Nat)
    (tags : List Int) (htags : ∀ t ∈ tags, 0 ≤ t ∧ t < (rows * cols : Nat)) (hne : tags ≠ [])
    (L : List ((Int × Int) × (K × K))) (s : SampleState K)
    (hs : SInv cols size spacing (held rows cols m) L s) :
    ∃ s' L', sampleStep g rand tags s = .ok s' ∧
      SInv cols size spacing (held rows cols m) L' s' ∧ s'.calls = s.calls + 2 ∧
      (L' = L ∨ ∃ e, L' = L ++ [e]) ∧ s.seen ⊆ s'.seen ∧
      ∀ (a : Nat) (ha : a < tags.length), rand s.calls % tags.length = a →
        (tags[a], ((rand (s.calls + 1) % 4 : Nat) : Int)) ∈ s'.seen := by
  have hlen : tags.length ≠ 0 := by simpa using hne
  have hidx : rand s.calls % tags.length < tags.length := Nat.mod_lt _ (by omega)
  have hget : tags[rand s.calls % tags.length]? = some tags[rand s.calls % tags.length] :=
    List.getElem?_eq_getElem hidx
  generalize htag : tags[rand s.calls % tags.length] = tag at hget
  have hmem : tag ∈ tags := by rw [← htag]; exact List.getElem_mem _
  obtain ⟨ht0, ht1⟩ := htags tag hmem
  have hv : Valid rows cols tag ((rand (s.calls + 1) % 4 : Nat) : Int) :=
    ⟨ht0, by exact_mod_cast ht1, by omega, by omega⟩
  rw [sampleStep, if_neg hlen, hget]
  simp only [ok_bind, pure_eq_ok]
  set corner : Int := ((rand (s.calls + 1) % 4 : Nat) : Int) with hcorner
  by_cases hseen : (tag, corner) ∈ s.seen
  · rw [if_pos hseen]
    refine ⟨_, L, rfl, ⟨hs.out, hs.nodup, hs.sub, hs.seen, hs.full⟩, rfl, Or.inl rfl, fun x hx => hx, ?_⟩
    intro a ha hr
    subst hr
    rw [htag]; exact hseen
  · rw [if_neg hseen, h.row hv, ok_bind]
    have hnotL : ∀ kp, ((tag, corner), kp) ∉ L := fun kp hm => hseen (hs.seen _ hm)
    cases hm : m tag corner with
    | none =>
      refine ⟨_, L, rfl, ⟨?_, hs.nodup, hs.sub, ?_, ?_⟩, rfl, Or.inl rfl, ?_, ?_⟩
      · simp [rowFor, zeroRow, hs.out]
      · intro e he; exact List.mem_cons_of_mem _ (hs.seen e he)
      · rintro ⟨⟨t, c⟩, kp⟩ he hse
        rcases List.mem_cons.mp hse with heq | hse
        · simp only [Prod.mk.injEq] at heq
          obtain ⟨rfl, rfl⟩ := heq
          rw [mem_held] at he
          rw [he.2] at hm; exact absurd hm (by simp)
        · exact hs.full _ he hse
      · intro x hx; exact List.mem_cons_of_mem _ hx
      · intro a ha hr
        subst hr
        rw [htag]; exact List.mem_cons_self
    | some kp =>
      have hH : ((tag, corner), kp) ∈ held rows cols m := (mem_held _ _ _ _ _ _).mpr ⟨hv, hm⟩
      refine ⟨_, L ++ [((tag, corner), kp)], rfl, ⟨?_, ?_, ?_, ?_, ?_⟩, rfl, Or.inr ⟨_, rfl⟩, ?_, ?_⟩
      · have hc4 : (tag.toNat * 4 + corner.toNat) / 4 = tag.toNat := by omega
        have hc5 : (tag.toNat * 4 + corner.toNat) % 4 = corner.toNat := by omega
        simp [rowFor, hs.out, Meas.push, measOf, boardAt, hc4, hc5]
      · rw [List.map_append, List.nodup_append]
        refine ⟨hs.nodup, by simp, ?_⟩
        intro a ha b hb hab
        simp only [List.map_cons, List.map_nil, List.mem_singleton] at hb
        subst hb
        rw [List.mem_map] at ha
        obtain ⟨e, he, rfl⟩ := ha
        exact hseen (hab ▸ hs.seen e he)
      · intro e he
        rcases List.mem_append.mp he with he | he
        · exact hs.sub e he
        · rw [List.mem_singleton.mp he]; exact hH
      · intro e he
        rcases List.mem_append.mp he with he | he
        · exact List.mem_cons_of_mem _ (hs.seen e he)
        · rw [List.mem_singleton.mp he]; exact List.mem_cons_self
      · rintro ⟨⟨t, c⟩, kp'⟩ he hse
        rcases List.mem_cons.mp hse with heq | hse
        · simp only [Prod.mk.injEq] at heq
          obtain ⟨rfl, rfl⟩ := heq
          rw [mem_held] at he
          rw [he.2] at hm
          simp only [Option.some.injEq] at hm
          subst hm
          simp
        · exact List.mem_append_left _ (hs.full _ he hse)
      · intro x hx; exact List.mem_cons_of_mem _ hx
      · intro a ha hr
        subst hr
        rw [htag]; exact List.mem_cons_self

theorem sinv_init (cols : Nat) (size spacing : K) (H : List ((Int × Int) × (K × K))) :
    SInv cols size spacing H [] (⟨Meas.empty, [], 0⟩ : SampleState K) :=
  ⟨rfl, by simp, by simp, by simp, by simp⟩

/-- Safety: whatever the random numbers, if the loop returns it returns exactly `target`
distinct held entries. -/
theorem loop_safe (h : Core ts rows cols size spacing m extra g) (rand : Nat → Nat)
    (tags : List Int) (htags : ∀ t ∈ tags, 0 ≤ t ∧ t < (rows * cols : Nat)) (n : Nat) :
    ∀ (fuel : Nat) (s s' : SampleState K) (L : List ((Int × Int) × (K × K))),
    SInv cols size spacing (held rows cols m) L s → L.length ≤ sampleTarget g n →
    sampleLoop g rand tags n fuel s = .ok s' →
    ∃ L', SInv cols size spacing (held rows cols m) L' s' ∧ L'.length = sampleTarget g n := by
  intro fuel
  induction fuel with
  | zero =>
    intro s s' L hs hle hr
    have hl : s.out.tagIds.length = L.length := by rw [hs.out]; simp [measOf]
    rw [sampleLoop] at hr
    split_ifs at hr with hlt
    simp only [Except.ok.injEq] at hr
    subst hr
    exact ⟨L, hs, by omega⟩
  | succ fuel ih =>
    intro s s' L hs hle hr
    have hl : s.out.tagIds.length = L.length := by rw [hs.out]; simp [measOf]
    rw [sampleLoop] at hr
    split_ifs at hr with hlt
    · by_cases hne : tags = []
      · subst hne
        simp [sampleStep] at hr
      · obtain ⟨s1, L1, e1, i1, _, hL1, _, _⟩ := step_inv h rand tags htags hne L s hs
        simp only [e1, ok_bind] at hr
        refine ih s1 s' L1 i1 ?_ hr
        rcases hL1 with rfl | ⟨e, rfl⟩
        · exact hle
        · simp; omega
    · simp only [Except.ok.injEq] at hr
      subst hr
      exact ⟨L, hs, by omega⟩

/-- A stream of random numbers is fair if, for every number `len` of candidates, every
(candidate, corner) combination is drawn again and again. -/
def Fair (rand : Nat → Nat) : Prop :=
  ∀ len a b N : Nat, a < len → b < 4 →
    ∃ j, N ≤ j ∧ rand (2 * j) % len = a ∧ rand (2 * j + 1) % 4 = b

theorem loop_live (h : Core ts rows cols size spacing m extra g) (rand : Nat → Nat)
    (hfair : Fair rand) (tags : List Int)
    (htags : ∀ t, t ∈ tags ↔ ∃ e ∈ held rows cols m, e.1.1 = t) (n : Nat)
    (htgt : sampleTarget g n ≤ (held rows cols m).length) :
    ∃ fuel s', sampleLoop g rand tags n fuel ⟨Meas.empty, [], 0⟩ = .ok s' := by
  have htags' : ∀ t ∈ tags, 0 ≤ t ∧ t < (rows * cols : Nat) := by
    intro t ht
    obtain ⟨⟨⟨t', c⟩, kp⟩, he, rfl⟩ := (htags t).mp ht
    have := ((mem_held _ _ _ _ _ _).mp he).1
    exact ⟨this.1, by exact_mod_cast this.2.1⟩
  -- one more element is always reached
  have more : ∀ (d : Nat) (s : SampleState K) (L : List ((Int × Int) × (K × K))) (k : Nat),
      SInv cols size spacing (held rows cols m) L s → s.calls = 2 * k →
      sampleTarget g n ≤ L.length + d →
      ∃ fuel s', sampleLoop g rand tags n fuel s = .ok s' := by
    intro d
    induction d with
    | zero =>
      intro s L k hs hk hd
      have hl : s.out.tagIds.length = L.length := by rw [hs.out]; simp [measOf]
      exact ⟨0, s, by rw [sampleLoop, if_neg (by omega)]⟩
    | succ d ihd =>
      intro s L k hs hk hd
      have hl : s.out.tagIds.length = L.length := by rw [hs.out]; simp [measOf]
      by_cases hlt : L.length < sampleTarget g n
      · -- some held entry is not yet listed
        have hex : ∃ e ∈ held rows cols m, e ∉ L := by
          by_contra hcon
          push Not at hcon
          have hnd : (held rows cols m).Nodup := by
            have := held_sorted rows cols m
            rw [List.Nodup]
            refine this.imp ?_
            rintro a b hab rfl
            omega
          have := List.Nodup.subperm hnd hcon
          have := this.length_le
          omega
        obtain ⟨e, heH, heL⟩ := hex
        have hte : e.1.1 ∈ tags := (htags _).mpr ⟨e, heH, rfl⟩
        have hne : tags ≠ [] := List.ne_nil_of_mem hte
        obtain ⟨a, ha, hae⟩ := List.getElem_of_mem hte
        have hve : Valid rows cols e.1.1 e.1.2 := by
          obtain ⟨⟨t, c⟩, kp⟩ := e
          exact ((mem_held _ _ _ _ _ _).mp heH).1
        obtain ⟨j, hjk, hja, hjb⟩ := hfair tags.length a e.1.2.toNat k ha (by
          obtain ⟨_, _, h3, h4⟩ := hve; omega)
        -- run until iteration j (inclusive)
        have adv : ∀ (w : Nat) (s : SampleState K) (L : List ((Int × Int) × (K × K))) (k : Nat),
            SInv cols size spacing (held rows cols m) L s → s.calls = 2 * k → k + w = j →
            sampleTarget g n ≤ L.length + (d + 1) → e ∉ L →
            ∃ fuel s', sampleLoop g rand tags n fuel s = .ok s' := by
          intro w
          induction w with
          | zero =>
            intro s L k hs hk hkj hd heL
            have hl : s.out.tagIds.length = L.length := by rw [hs.out]; simp [measOf]
            by_cases hlt : L.length < sampleTarget g n
            · obtain ⟨s1, L1, e1, i1, c1, hL1, _, hdraw⟩ := step_inv h rand tags htags' hne L s hs
              have hkj : k = j := by omega
              subst hkj
              have hin := hdraw a ha (by rw [hk]; exact hja)
              rw [hk] at hin
              have hcorner : ((rand (2 * k + 1) % 4 : Nat) : Int) = e.1.2 := by
                rw [hjb]; obtain ⟨_, _, h3, _⟩ := hve; omega
              rw [hae, hcorner] at hin
              have heL1 : e ∈ L1 := i1.full e heH hin
              have hlen1 : L1.length = L.length + 1 := by
                rcases hL1 with rfl | ⟨x, rfl⟩
                · exact absurd heL1 heL
                · simp
              obtain ⟨f, s2, hf⟩ := ihd s1 L1 (k + 1) i1 (by omega) (by omega)
              exact ⟨f + 1, s2, by rw [sampleLoop, if_pos (by omega)]; simp only [e1, ok_bind, hf]⟩
            · exact ⟨0, s, by rw [sampleLoop, if_neg (by omega)]⟩
          | succ w ihw =>
            intro s L k hs hk hkj hd heL
            have hl : s.out.tagIds.length = L.length := by rw [hs.out]; simp [measOf]
            by_cases hlt : L.length < sampleTarget g n
            · obtain ⟨s1, L1, e1, i1, c1, hL1, _, hdraw⟩ := step_inv h rand tags htags' hne L s hs
              rcases hL1 with hL1 | ⟨x, hL1⟩
              · subst hL1
                obtain ⟨f, s2, hf⟩ := ihw s1 L1 (k + 1) i1 (by omega) (by omega) hd heL
                exact ⟨f + 1, s2, by rw [sampleLoop, if_pos (by omega)]; simp only [e1, ok_bind, hf]⟩
              · subst hL1
                obtain ⟨f, s2, hf⟩ := ihd s1 _ (k + 1) i1 (by omega) (by simp; omega)
                exact ⟨f + 1, s2, by rw [sampleLoop, if_pos (by omega)]; simp only [e1, ok_bind, hf]⟩
            · exact ⟨0, s, by rw [sampleLoop, if_neg (by omega)]⟩
        exact adv (j - k) s L k hs hk (by omega) hd heL
      · exact ⟨0, s, by rw [sampleLoop, if_neg (by omega)]⟩
  exact more (sampleTarget g n) _ [] 0 (sinv_init _ _ _ _) rfl (by simp)

end Yac.AprilGrid
