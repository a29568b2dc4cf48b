import Verif.Cv.Spec
import Mathlib.Tactic.Ring
import Mathlib.Tactic.Linarith
import Mathlib.Tactic.Push
import Mathlib.Data.List.Perm.Basic
import Mathlib.Data.List.Nodup
import Mathlib.Data.List.Range

namespace Yac.Cv

theorem starts_eq (n d : Nat) : ∀ (k fuel x : Nat), k ≤ fuel → n ≤ x + k * d →
    (∀ i, i < k → x + i * d < n) →
    starts (fuel + 1) n d x = (List.range k).map fun i => x + i * d
  | 0, fuel, x, _, h, _ => by
      have : ¬ x < n := by omega
      simp [starts, this]
  | k + 1, 0, x, hf, _, _ => by omega
  | k + 1, fuel + 1, x, hf, h, hlt => by
      have h0 : x < n := by simpa using hlt 0 (by omega)
      have ih := starts_eq n d k fuel (x + d) (by omega) (by
        have : (k + 1) * d = k * d + d := by ring
        omega) (by
        intro i hi
        have := hlt (i + 1) (by omega)
        have h2 : (i + 1) * d = i * d + d := by ring
        omega)
      rw [starts, if_pos h0, ih, List.range_succ_eq_map, List.map_cons, List.map_map]
      congr 1
      · simp
      · apply List.map_congr_left
        intro i _
        simp only [Function.comp, Nat.succ_eq_add_one]
        ring

/-- The number of steps of length `d` in `n`, rounded up. -/
theorem starts_zero {n d : Nat} (hd : 0 < d) :
    starts (n + 1) n d 0 = (List.range ((n + d - 1) / d)).map fun i => i * d := by
  have hk : ∀ i, i < (n + d - 1) / d ↔ i * d < n := by
    intro i
    rw [Nat.lt_div_iff_mul_lt hd]
    constructor <;> intro h <;> omega
  rw [starts_eq n d ((n + d - 1) / d) n 0]
  · simp
  · rcases Nat.eq_zero_or_pos n with h | h
    · subst h
      rw [Nat.div_eq_of_lt (by omega)]
    · apply Nat.div_le_of_le_mul
      have : n + d ≤ d * n + 1 := by
        obtain ⟨a, rfl⟩ := Nat.exists_eq_add_of_le' (show 1 ≤ d from hd)
        obtain ⟨b, rfl⟩ := Nat.exists_eq_add_of_le' (show 1 ≤ n from h)
        have : (a + 1) * (b + 1) = a * b + a + b + 1 := by ring
        have h3 := Nat.zero_le (a * b)
        omega
      omega
  · rw [Nat.zero_add]
    by_contra hc
    exact absurd ((hk _).2 (by omega)) (lt_irrefl _)
  · intro i hi
    have := (hk i).1 hi
    omega

theorem mem_starts {n d : Nat} (hd : 0 < d) (x : Nat) :
    x ∈ starts (n + 1) n d 0 ↔ x < n ∧ d ∣ x := by
  rw [starts_zero hd, List.mem_map]
  constructor
  · rintro ⟨i, hi, rfl⟩
    rw [List.mem_range, Nat.lt_div_iff_mul_lt hd] at hi
    exact ⟨by omega, ⟨i, by ring⟩⟩
  · rintro ⟨hx, i, rfl⟩
    refine ⟨i, ?_, by ring⟩
    rw [List.mem_range, Nat.lt_div_iff_mul_lt hd]
    have : i * d = d * i := by ring
    omega

theorem nodup_starts {n d : Nat} (hd : 0 < d) : (starts (n + 1) n d 0).Nodup := by
  rw [starts_zero hd]
  apply List.Nodup.map _ (List.nodup_range)
  intro a b h
  exact Nat.eq_of_mul_eq_mul_right hd h

theorem mem_lines {n d : Nat} (hd : 0 < d) (x : Nat) :
    x ∈ starts (n + 1) n d d ↔ 0 < x ∧ x < n ∧ d ∣ x := by
  have h : 0 < n → starts (n + 1) n d 0 = 0 :: starts n n d d := by
    intro h
    rw [starts, if_pos h, Nat.zero_add]
  rcases Nat.eq_zero_or_pos n with h0 | h0
  · subst h0
    have : starts (0 + 1) 0 d d = [] := by simp [starts]
    rw [this]
    simp
  -- one more unit of fuel changes nothing
  have hfuel : ∀ (k f x : Nat), n ≤ x + k * d → k ≤ f → ∀ g, k ≤ g →
      starts (f + 1) n d x = starts (g + 1) n d x := by
    intro k
    induction k with
    | zero =>
      intro f x hx _ g _
      have : ¬ x < n := by omega
      simp [starts, this]
    | succ k ih =>
      intro f x hx hf g hg
      obtain ⟨f', rfl⟩ := Nat.exists_eq_add_of_le' (show 1 ≤ f by omega)
      obtain ⟨g', rfl⟩ := Nat.exists_eq_add_of_le' (show 1 ≤ g by omega)
      have hk : (k + 1) * d = k * d + d := by ring
      have e := ih f' (x + d) (by omega) (by omega) g' (by omega)
      conv_lhs => rw [starts]
      conv_rhs => rw [starts]
      rw [e]
  obtain ⟨m, rfl⟩ := Nat.exists_eq_add_of_le' h0
  have hm : m + 1 ≤ d + m * d := by
    have := Nat.le_mul_of_pos_right m hd
    omega
  have h1 : starts (m + 1 + 1) (m + 1) d d = starts (m + 1) (m + 1) d d :=
    hfuel m (m + 1) d hm (by omega) m le_rfl
  rw [h1]
  have hnd := nodup_starts (n := m + 1) hd
  rw [h h0] at hnd
  have hmem := mem_starts (n := m + 1) hd x
  rw [h h0, List.mem_cons] at hmem
  constructor
  · intro hx
    have hp := hmem.1 (Or.inr hx)
    refine ⟨?_, hp⟩
    rcases Nat.eq_zero_or_pos x with h2 | h2
    · subst h2
      exact absurd hx (List.nodup_cons.1 hnd).1
    · exact h2
  · rintro ⟨h2, h3, h4⟩
    rcases hmem.2 ⟨h3, h4⟩ with h5 | h5
    · omega
    · exact h5

theorem cell_fst {W H dx dy x y : Nat} (hx : x < W) (hy : y < H) (hdx : 0 < dx) (hdy : 0 < dy) :
    0 < (cell W H dx dy x y).w ∧ 0 < (cell W H dx dy x y).h ∧
      x + (cell W H dx dy x y).w ≤ W ∧ y + (cell W H dx dy x y).h ≤ H ∧
      (cell W H dx dy x y).w ≤ dx ∧ (cell W H dx dy x y).h ≤ dy := by
  unfold cell
  dsimp only
  refine ⟨?_, ?_, ?_, ?_, ?_, ?_⟩ <;> split_ifs <;> omega

theorem mult_unique {d i j u : Nat} (hd : 0 < d) (h1 : i * d ≤ u) (h2 : u < i * d + d)
    (h3 : j * d ≤ u) (h4 : u < j * d + d) : i = j := by
  have e1 : u / d = i := by
    apply Nat.div_eq_of_lt_le
    · exact h1
    · have : (i + 1) * d = i * d + d := by ring
      omega
  have e2 : u / d = j := by
    apply Nat.div_eq_of_lt_le
    · exact h3
    · have : (j + 1) * d = j * d + d := by ring
      omega
  omega

theorem tiles_cells {W H dx dy : Nat} (hdx : 0 < dx) (hdy : 0 < dy) :
    Tiles W H ((starts (W + 1) W dx 0).flatMap fun x =>
      (starts (H + 1) H dy 0).map fun y => cell W H dx dy x y) := by
  have hmem : ∀ r, r ∈ ((starts (W + 1) W dx 0).flatMap fun x =>
      (starts (H + 1) H dy 0).map fun y => cell W H dx dy x y) ↔
      ∃ x y, x < W ∧ dx ∣ x ∧ y < H ∧ dy ∣ y ∧ cell W H dx dy x y = r := by
    intro r
    rw [List.mem_flatMap]
    constructor
    · rintro ⟨x, hx, hr⟩
      obtain ⟨y, hy, rfl⟩ := List.mem_map.1 hr
      rw [mem_starts hdx] at hx
      rw [mem_starts hdy] at hy
      exact ⟨x, y, hx.1, hx.2, hy.1, hy.2, rfl⟩
    · rintro ⟨x, y, h1, h2, h3, h4, rfl⟩
      exact ⟨x, (mem_starts hdx x).2 ⟨h1, h2⟩, List.mem_map.2 ⟨y, (mem_starts hdy y).2 ⟨h3, h4⟩, rfl⟩⟩
  refine ⟨?_, ?_, ?_⟩
  · rw [List.nodup_flatMap]
    constructor
    · intro x _
      apply List.Nodup.map _ (nodup_starts hdy)
      intro a b h
      exact congrArg Roi.y h
    · apply List.Pairwise.imp _ (nodup_starts hdx)
      intro a b hab
      intro r hr hr'
      obtain ⟨y, _, rfl⟩ := List.mem_map.1 hr
      obtain ⟨y', _, h⟩ := List.mem_map.1 hr'
      exact hab (congrArg Roi.x h).symm
  · intro r hr
    obtain ⟨x, y, h1, _, h3, _, rfl⟩ := (hmem r).1 hr
    obtain ⟨a, b, c, d, _⟩ := cell_fst (W := W) (H := H) h1 h3 hdx hdy
    exact ⟨a, b, c, d⟩
  · intro u v hu hv
    have hmx : u / dx * dx ≤ u := Nat.div_mul_le_self u dx
    have hmy : v / dy * dy ≤ v := Nat.div_mul_le_self v dy
    have hlx : u < u / dx * dx + dx := by
      have := Nat.lt_div_mul_add (a := u) hdx
      omega
    have hly : v < v / dy * dy + dy := by
      have := Nat.lt_div_mul_add (a := v) hdy
      omega
    refine ⟨cell W H dx dy (u / dx * dx) (v / dy * dy), ⟨(hmem _).2 ⟨_, _, by omega,
      ⟨u / dx, by ring⟩, by omega, ⟨v / dy, by ring⟩, rfl⟩, hmx, ?_, hmy, ?_⟩, ?_⟩
    · unfold cell
      dsimp only
      split_ifs <;> omega
    · unfold cell
      dsimp only
      split_ifs <;> omega
    · rintro r ⟨hr, c1, c2, c3, c4⟩
      obtain ⟨x, y, h1, ⟨i, rfl⟩, h3, ⟨j, rfl⟩, rfl⟩ := (hmem r).1 hr
      obtain ⟨_, _, _, _, hw, hh⟩ := cell_fst (W := W) (H := H) h1 h3 hdx hdy
      have c1' : dx * i ≤ u := c1
      have c2' : u < dx * i + (cell W H dx dy (dx * i) (dy * j)).w := c2
      have c3' : dy * j ≤ v := c3
      have c4' : v < dy * j + (cell W H dx dy (dx * i) (dy * j)).h := c4
      have ei : i = u / dx := mult_unique hdx (by rw [Nat.mul_comm]; exact c1')
        (by rw [Nat.mul_comm]; omega) hmx hlx
      have ej : j = v / dy := mult_unique hdy (by rw [Nat.mul_comm]; exact c3')
        (by rw [Nat.mul_comm]; omega) hmy hly
      rw [← ei, ← ej, Nat.mul_comm dx i, Nat.mul_comm dy j]

theorem copyLoop_eq (kps : List KP) (limit : Nat) : ∀ (is : List Nat) (acc : List KP),
    (∀ i ∈ is, i < kps.length) → (limit = 0 ∨ acc.length < limit) →
    copyLoop kps limit is acc = .ok (acc ++
      (if limit = 0 then is.map (fun i => kps.getD i ⟨0, 0, 0⟩)
       else (is.map (fun i => kps.getD i ⟨0, 0, 0⟩)).take (limit - acc.length)))
  | [], acc, _, _ => by simp [copyLoop]
  | i :: is, acc, hi, hl => by
      have h1 : i < kps.length := hi i (by simp)
      have h2 : kps[i]? = some kps[i] := List.getElem?_eq_getElem h1
      have h3 : kps.getD i ⟨0, 0, 0⟩ = kps[i] := by
        rw [List.getD_eq_getElem?_getD, h2]; rfl
      rw [copyLoop, h2]
      dsimp only
      by_cases hc : (acc ++ [kps[i]]).length = limit
      · rw [if_pos hc]
        have hlen : acc.length + 1 = limit := by simpa using hc
        rw [if_neg (by omega), List.map_cons, h3]
        have : limit - acc.length = 1 := by omega
        rw [this]
        simp
      · rw [if_neg hc, copyLoop_eq kps limit is _ (fun j hj => hi j (by simp [hj])) ?_]
        · rcases Nat.eq_zero_or_pos limit with h0 | h0
          · rw [if_pos h0, if_pos h0, List.map_cons, h3]
            simp
          · rw [if_neg (by omega), if_neg (by omega), List.map_cons, h3]
            have hlt : acc.length < limit := by omega
            have e : limit - acc.length = (limit - (acc ++ [kps[i]]).length) + 1 := by
              have : (acc ++ [kps[i]]).length = acc.length + 1 := by simp
              omega
            rw [e, List.take_succ_cons]
            simp
        · rcases hl with h | h
          · exact Or.inl h
          · refine Or.inr ?_
            have : (acc ++ [kps[i]]).length = acc.length + 1 := by simp
            omega

theorem map_getD_range (kps : List KP) (d : KP) :
    (List.range kps.length).map (fun i => kps.getD i d) = kps := by
  apply List.ext_getElem
  · simp
  · intro i h1 h2
    rw [List.getElem_map, List.getElem_range, List.getD_eq_getElem?_getD,
      List.getElem?_eq_getElem h2]
    rfl

theorem sortKeypoints_best {s : List ℤ → List Nat} (hs : SortIdx s) (kps : List KP) (limit : Nat) :
    ∃ out, sortKeypoints s kps limit = .ok out ∧
      Best (if limit = 0 then kps.length else limit) kps out := by
  unfold sortKeypoints
  by_cases h0 : kps.length = 0
  · rw [if_pos h0]
    have : kps = [] := List.length_eq_zero_iff.1 h0
    subst this
    refine ⟨[], rfl, by simp, by simp, [], by simp, by simp⟩
  rw [if_neg h0]
  obtain ⟨hp, hd⟩ := hs (kps.map fun k => trunc k.resp)
  have hr : ∀ i ∈ s (kps.map fun k => trunc k.resp), i < kps.length := by
    intro i hi
    have := (hp.mem_iff (a := i)).1 hi
    simpa using this
  have hlim : limit = 0 ∨ ([] : List KP).length < limit := by
    rcases Nat.eq_zero_or_pos limit with h | h
    · exact Or.inl h
    · exact Or.inr h
  rw [copyLoop_eq kps limit _ [] hr hlim]
  refine ⟨_, rfl, ?_⟩
  obtain ⟨full, hfull⟩ : ∃ full, full = (s (kps.map fun k => trunc k.resp)).map
      (fun i => kps.getD i ⟨0, 0, 0⟩) := ⟨_, rfl⟩
  have hperm : full.Perm kps := by
    rw [hfull]
    have h1 : (s (kps.map fun k => trunc k.resp)).Perm (List.range kps.length) := by
      simpa using hp
    have h2 := h1.map (fun i => kps.getD i ⟨0, 0, 0⟩)
    rwa [map_getD_range] at h2
  have hsorted : full.Pairwise (fun a b => trunc b.resp ≤ trunc a.resp) := by
    rw [hfull, List.pairwise_map]
    rw [List.pairwise_map] at hd
    apply List.Pairwise.imp_of_mem _ hd
    intro a b ha hb hab
    have ga : (kps.map fun k => trunc k.resp).getD a 0 = trunc (kps.getD a ⟨0, 0, 0⟩).resp := by
      have := hr a ha
      rw [List.getD_eq_getElem?_getD, List.getD_eq_getElem?_getD, List.getElem?_map,
        List.getElem?_eq_getElem this]
      rfl
    have gb : (kps.map fun k => trunc k.resp).getD b 0 = trunc (kps.getD b ⟨0, 0, 0⟩).resp := by
      have := hr b hb
      rw [List.getD_eq_getElem?_getD, List.getD_eq_getElem?_getD, List.getElem?_map,
        List.getElem?_eq_getElem this]
      rfl
    rw [ga, gb] at hab
    exact hab
  have hlen : full.length = kps.length := hperm.length_eq
  rw [← hfull, List.nil_append]
  rcases Nat.eq_zero_or_pos limit with h | h
  · rw [if_pos h, if_pos h]
    exact ⟨by rw [hlen]; simp, hsorted, [], by simpa using hperm, by simp⟩
  · rw [if_neg (by omega), if_neg (by omega)]
    have e : limit - ([] : List KP).length = limit := by simp
    rw [e]
    have hsplit := List.take_append_drop limit full
    refine ⟨by rw [List.length_take, hlen], ?_, full.drop limit, by rw [hsplit]; exact hperm, ?_⟩
    · exact hsorted.sublist (List.take_sublist _ _)
    · rw [← hsplit, List.pairwise_append] at hsorted
      exact hsorted.2.2

theorem pushLoop_eq (r : Roi) (lim : Nat) : ∀ (ks : List KP) (c : Nat), c < max 1 lim →
    pushLoop r.x r.y lim ks c = (ks.take (max 1 lim - c)).map (place r)
  | [], c, _ => by simp [pushLoop]
  | k :: ks, c, hc => by
      rw [pushLoop]
      have e : max 1 lim - c = (max 1 lim - (c + 1)) + 1 := by omega
      rw [e, List.take_succ_cons, List.map_cons]
      have hp : (k.x + (r.x : ℚ), k.y + (r.y : ℚ)) = place r k := rfl
      rw [hp]
      congr 1
      by_cases h : c + 1 ≥ lim
      · rw [if_pos h]
        have : max 1 lim - (c + 1) = 0 := by omega
        rw [this]
        simp
      · rw [if_neg h, pushLoop_eq r lim ks (c + 1) (by omega)]

theorem best_take {n m : Nat} {all s : List KP} (h : Best n all s) (hn : all.length ≤ n) :
    Best m all (s.take m) := by
  obtain ⟨h1, h2, rest, h3, h4⟩ := h
  have hl : s.length = all.length := by omega
  have hrest : rest = [] := by
    have := h3.length_eq
    rw [List.length_append] at this
    exact List.length_eq_zero_iff.1 (by omega)
  subst hrest
  rw [List.append_nil] at h3
  have hsplit := List.take_append_drop m s
  refine ⟨by rw [List.length_take, hl], h2.sublist (List.take_sublist _ _), s.drop m,
    by rw [hsplit]; exact h3, ?_⟩
  rw [← hsplit, List.pairwise_append] at h2
  exact h2.2.2

theorem overCells_ok {f : Roi → Except Fault (List (ℚ × ℚ))} {P : Roi → List (ℚ × ℚ) → Prop} :
    ∀ (cs : List Roi), (∀ r ∈ cs, ∃ o, f r = .ok o ∧ P r o) →
    ∃ outs, overCells f cs = .ok outs.flatten ∧ List.Forall₂ P cs outs
  | [], _ => ⟨[], rfl, .nil⟩
  | r :: rs, h => by
      obtain ⟨o, ho, hp⟩ := h r (by simp)
      obtain ⟨outs, h1, h2⟩ := overCells_ok rs (fun r' hr' => h r' (by simp [hr']))
      refine ⟨o :: outs, ?_, .cons hp h2⟩
      rw [overCells, ho, h1]
      rfl

theorem gridParams_ok {W H : Nat} {m rows cols : Nat} (hr : 0 < rows) (hc : 0 < cols) :
    gridParams W H m rows cols = .ok (((W / cols : Nat) : ℤ), ((H / rows : Nat) : ℤ),
      perCell m rows cols) := by
  unfold gridParams
  rw [if_neg (by omega), if_neg (by omega)]
  dsimp only
  have h0 : (0 : ℤ) ≤ ⌈((m : ℤ) : ℚ) / (((rows : ℤ) * (cols : ℤ) : ℤ) : ℚ)⌉ := by
    apply Int.ceil_nonneg
    positivity
  rw [if_neg (by omega)]
  congr 3
  unfold perCell
  push_cast
  rw [← Int.ceil_toNat]

theorem gridCells_ok {W H dx dy : Nat} (hW : 0 < W) (hH : 0 < H) (hdx : 0 < dx) (hdy : 0 < dy) :
    gridCells W H (dx : ℤ) (dy : ℤ) = .ok ((starts (W + 1) W dx 0).flatMap fun x =>
      (starts (H + 1) H dy 0).map fun y => cell W H dx dy x y) := by
  unfold gridCells
  rw [if_neg (by omega), if_neg (by omega), if_neg (by omega), if_neg (by omega)]
  rfl

theorem cells_length {W H dx dy : Nat} (hdx : 0 < dx) (hdy : 0 < dy) :
    ((starts (W + 1) W dx 0).flatMap fun x =>
      (starts (H + 1) H dy 0).map fun y => cell W H dx dy x y).length =
      ((W + dx - 1) / dx) * ((H + dy - 1) / dy) := by
  rw [List.length_flatMap]
  simp [starts_zero hdx, starts_zero hdy, Function.comp_def]

end Yac.Cv
