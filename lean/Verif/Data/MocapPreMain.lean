import Verif.Data.MocapPreProps

/-!
# C132: theorems
-/

namespace Yac.Data

open Yac.AprilGrid (Grid Line Op)
open Yac.AprilGrid.Spec (Valid)
open Yac.Text (isDig natOf natText parseInt isSpace)
open Yac.Disk (Disk Tree Reads Names Path Name)

variable {K : Type} [Field K]

/-- `a` does not come after `b` in the order of characters. -/
def NotAfter (a b : List Char) : Prop := ¬ List.Lex (fun x y : Char => x.toNat < y.toNat) b a

/-- The images of a directory: each entry is named after its time, and the times differ. -/
structure ImagesAt (d : Disk) (p : Path) (time : Name → Nat) : Prop where
  named : ∀ n, d.node (p ++ [n]) ≠ none → Named n (time n)
  inj : ∀ a b, d.node (p ++ [a]) ≠ none → d.node (p ++ [b]) ≠ none → time a = time b → a = b

/-- What the sorted listing is. -/
theorem sorted_listing (readdir : Path → List Name) (d : Disk) (ht : Tree d) (hr : Reads readdir d)
    (s : List Char) (p : Path) (hp : Names d s p) (hd : d.node p = some .dir)
    (hrd : d.readable p = true) :
    ∃ ns : List Name, (Disk.listDir readdir d s []).1 = 0 ∧
      Disk.sortNames (Disk.listDir readdir d s []).2 = ns ∧ ns.Nodup ∧
      (∀ n, n ∈ ns ↔ d.node (p ++ [n]) ≠ none) ∧ ns.Pairwise NotAfter := by
  obtain ⟨l, out, h1, h2, h3, h4, h5⟩ := (Disk.C131_list_files readdir d ht hr s []).1 p hp hd hrd
  rw [List.nil_append] at h2
  unfold Disk.listFiles at h1
  rw [(Disk.C131_dir_exists d s).1.mpr ⟨p, hp, hd, hrd⟩] at h1
  simp only at h1
  by_cases hz : (Disk.listDir readdir d s []).1 ≠ 0
  · rw [if_pos hz] at h1
    simp at h1
  · rw [if_neg hz] at h1
    have he : Disk.sortNames (Disk.listDir readdir d s []).2 = out := by
      simpa using h1
    exact ⟨out, not_not.mp hz, he, h2.nodup_iff.mpr h3, fun n => by rw [h2.mem_iff]; exact h4 n, h5⟩

/-- **C132 (every image once).** Preprocessing a directory of images yields one grid for each image,
in the order of the file names: the saved grid if there is one, else what the detector sees.  After
it there is a file for each image; files that were there, and all others, are unchanged. -/
theorem C132_each (m : MPre K) (hS : m.Shots) (readdir : Path → List Name) (d : Disk)
    (ht : Tree d) (hr : Reads readdir d) (camPath gridPath : List Char) (p : Path)
    (hp : Names d camPath p) (hd : d.node p = some .dir) (hrd : d.readable p = true)
    (time : Name → Nat) (hI : ImagesAt d p time) (fs : FileSys K)
    (hL : ∀ n, d.node (p ++ [n]) ≠ none → ∀ f, fs (csvPath gridPath (time n)) = some f →
      ∃ g, loadFile false f = .ok g) :
    ∃ (fs' : FileSys K) (ns : List Name) (gs : List (Grid K)),
      mocapPre m readdir d camPath gridPath fs = .ok (fs', gs) ∧
      ns.Nodup ∧ (∀ n, n ∈ ns ↔ d.node (p ++ [n]) ≠ none) ∧ ns.Pairwise NotAfter ∧
      List.Forall₂ (fun n g => m.Outcome fs camPath gridPath (n, time n) g) ns gs ∧
      (∀ n ∈ ns, m.Kept fs fs' camPath gridPath (n, time n)) ∧
      ∀ q, (∀ n ∈ ns, q ≠ csvPath gridPath (time n)) → fs' q = fs q := by
  obtain ⟨ns, h0, h1, h2, h3, h4⟩ := sorted_listing readdir d ht hr camPath p hp hd hrd
  have hmap : (ns.map fun n => (n, time n)).map Prod.fst = ns := by
    rw [List.map_map]; exact List.map_id _
  obtain ⟨fs', gs, e1, e2, e3, e4⟩ := mocap_loop m fs camPath gridPath
    (fun t ht path => hS.save t ht path) (ns.map fun n => (n, time n)) fs []
    (by
      intro it hit
      obtain ⟨n, hn, rfl⟩ := List.mem_map.mp hit
      exact hI.named n ((h3 n).mp hn))
    (by
      rw [List.map_map]
      refine List.Nodup.map_on ?_ h2
      intro a ha b hb hab
      exact hI.inj a b ((h3 a).mp ha) ((h3 b).mp hb) hab)
    (fun _ _ => rfl)
    (by
      intro it hit
      obtain ⟨n, hn, rfl⟩ := List.mem_map.mp hit
      exact hL n ((h3 n).mp hn))
  rw [hmap] at e1
  refine ⟨fs', ns, gs, ?_, h2, h3, h4, ?_, ?_, ?_⟩
  · unfold mocapPre
    simp only
    rw [if_neg (by rw [h0]; simp), h1, e1]
    simp
  · rwa [List.forall₂_map_left_iff] at e2
  · intro n hn
    exact e3 (n, time n) (List.mem_map.mpr ⟨n, hn, rfl⟩)
  · intro q hq
    apply e4
    intro it hit
    obtain ⟨n, hn, rfl⟩ := List.mem_map.mp hit
    exact hq n hn

/-! ### Order -/

theorem val_lt (a b : List Char) (hl : a.length = b.length) (ha : ∀ c ∈ a, isDig c = true)
    (hb : ∀ c ∈ b, isDig c = true) (u v : Nat) (h : u < v) :
    a.foldl (fun v c => 10 * v + (c.toNat - 48)) u < b.foldl (fun v c => 10 * v + (c.toNat - 48)) v := by
  induction a generalizing b u v with
  | nil =>
    cases b with
    | nil => simpa using h
    | cons _ _ => simp at hl
  | cons x a ih =>
    cases b with
    | nil => simp at hl
    | cons y b =>
      rw [List.foldl_cons, List.foldl_cons]
      apply ih b (by simpa using hl) (fun c hc => ha c (by simp [hc])) (fun c hc => hb c (by simp [hc]))
      have := ha x (by simp)
      simp only [isDig, Bool.and_eq_true, decide_eq_true_eq] at this
      omega

/-- Among digit strings of one length the order of characters is the order of numbers. -/
theorem lex_of_val (a b r s : List Char) (hl : a.length = b.length) (ha : ∀ c ∈ a, isDig c = true)
    (hb : ∀ c ∈ b, isDig c = true) (u : Nat)
    (h : a.foldl (fun v c => 10 * v + (c.toNat - 48)) u < b.foldl (fun v c => 10 * v + (c.toNat - 48)) u) :
    List.Lex (fun x y : Char => x.toNat < y.toNat) (a ++ r) (b ++ s) := by
  induction a generalizing b u with
  | nil =>
    cases b with
    | nil => simp at h
    | cons _ _ => simp at hl
  | cons x a ih =>
    cases b with
    | nil => simp at hl
    | cons y b =>
      rw [List.foldl_cons, List.foldl_cons] at h
      have hx := ha x (by simp)
      have hy := hb y (by simp)
      simp only [isDig, Bool.and_eq_true, decide_eq_true_eq] at hx hy
      have hl' : a.length = b.length := by simpa using hl
      have ha' : ∀ c ∈ a, isDig c = true := fun c hc => ha c (by simp [hc])
      have hb' : ∀ c ∈ b, isDig c = true := fun c hc => hb c (by simp [hc])
      rcases lt_trichotomy x.toNat y.toNat with hxy | hxy | hxy
      · exact List.Lex.rel hxy
      · have : x = y := Char.toNat_inj.mp hxy
        subst this
        exact List.Lex.cons (ih b hl' ha' hb' _ h)
      · have := val_lt b a hl'.symm hb' ha' (10 * u + (y.toNat - 48)) (10 * u + (x.toNat - 48)) (by omega)
        omega

/-- **C132 (order).** If the times of all images have the same number of digits, the grids come in
the order of time.  (Missing: see C132_order_refuted.) -/
theorem C132_order_partial (k : Nat) (ns : List Name) (time : Name → Nat) (hs : ns.Pairwise NotAfter)
    (hd : ns.Pairwise (fun a b => time a ≠ time b))
    (hn : ∀ n ∈ ns, ∃ ds rest, n = ds ++ rest ∧ ds.length = k ∧ (∀ c ∈ ds, isDig c = true) ∧
      time n = natOf ds) : ns.Pairwise (fun a b => time a < time b) := by
  have hall := hs.and hd
  refine List.Pairwise.imp_of_mem ?_ hall
  intro a b ha hb ⟨h1, h2⟩
  by_contra hlt
  have hgt : time b < time a := by omega
  obtain ⟨da, ra, rfl, la, dda, ta⟩ := hn a ha
  obtain ⟨db, rb, rfl, lb, ddb, tb⟩ := hn b hb
  rw [ta, tb] at hgt
  exact h1 (lex_of_val db da rb ra (by omega) ddb dda 0 hgt)

/-- **C132 (order), refuted.** Ten is sorted before nine. -/
theorem C132_order_refuted : NotAfter "10.png".toList "9.png".toList ∧
    ¬ NotAfter "9.png".toList "10.png".toList ∧ Named "10.png".toList 10 ∧ Named "9.png".toList 9 := by
  refine ⟨?_, ?_, ⟨⟨"10".toList, ".png".toList, by decide⟩, by decide, by decide⟩,
    ⟨⟨"9".toList, ".png".toList, by decide⟩, by decide, by decide⟩⟩
  · unfold NotAfter
    rw [← Disk.strLt_iff]; decide
  · unfold NotAfter
    rw [← Disk.strLt_iff]; decide

/-! ### Again -/

/-- **C132 (again).** Run again on the same images, nothing is detected any more, no file changes,
and each grid is the same as before, or as read back from its file. -/
theorem C132_again (m m' : MPre K) (hS : m.Shots) (hS' : m'.Shots)
    (hm : m'.rows = m.rows ∧ m'.cols = m.cols ∧ m'.size = m.size ∧ m'.spacing = m.spacing)
    (readdir : Path → List Name) (d : Disk)
    (ht : Tree d) (hr : Reads readdir d) (camPath gridPath : List Char) (p : Path)
    (hp : Names d camPath p) (hd : d.node p = some .dir) (hrd : d.readable p = true)
    (time : Name → Nat) (hI : ImagesAt d p time) (fs fs' : FileSys K) (gs : List (Grid K))
    (hL : ∀ n, d.node (p ++ [n]) ≠ none → ∀ f, fs (csvPath gridPath (time n)) = some f →
      ∃ g, loadFile false f = .ok g)
    (h : mocapPre m readdir d camPath gridPath fs = .ok (fs', gs)) :
    ∃ gs', mocapPre m' readdir d camPath gridPath fs' = .ok (fs', gs') ∧
      List.Forall₂ (fun g g' => g' = g ∨ ∃ e : Pre K, e.rows = m.rows ∧ e.cols = m.cols ∧
        e.p6 = m.p6 ∧ e.p10 = m.p10 ∧ Reread e g g') gs gs' := by
  obtain ⟨fs1, ns, gs1, e1, e2, e3, e4, e5, e6, e7⟩ := C132_each m hS readdir d ht hr camPath gridPath p hp
    hd hrd time hI fs hL
  rw [h] at e1
  cases e1
  -- what the file of an image holds now
  have hload : ∀ n ∈ ns, ∀ g, m.Outcome fs camPath gridPath (n, time n) g →
      ∃ f g', fs' (csvPath gridPath (time n)) = some f ∧ loadFile false f = .ok g' ∧
        (m'.fill (time n) g' = g ∨ ∃ e : Pre K, e.rows = m.rows ∧ e.cols = m.cols ∧
          e.p6 = m.p6 ∧ e.p10 = m.p10 ∧ Reread e g (m'.fill (time n) g')) := by
    intro n hn g hg
    have hsmall := (hI.named n ((e3 n).mp hn)).small
    cases hx : fs (csvPath gridPath (time n)) with
    | some f =>
      obtain ⟨g0, hg0, h1, h2⟩ := hg.1 f hx
      refine ⟨f, g0, (e6 n hn).1 f hx, hg0, Or.inl ?_⟩
      cases hdet : g0.detected with
      | true => rw [(fill_outcome m' (time n) g0).1 hdet, h1 hdet]
      | false =>
        rw [(fill_outcome m' (time n) g0).2 hdet, h2 hdet, hm.1, hm.2.1, hm.2.2.1, hm.2.2.2]
    | none =>
      obtain ⟨image, hj, hgs⟩ := hg.2 hx
      obtain ⟨image', ls, hj', hls, hfile⟩ := (e6 n hn).2 hx
      rw [hj] at hj'
      cases hj'
      have hts := tsOf_natText hsmall
      obtain ⟨g', hg', hre⟩ := reread (hS.pre image) (natText (time n)) (ls := ls)
        (by simpa [MPre.pre, hts] using hls)
      refine ⟨_, g', hfile, hg', Or.inr ⟨m.pre image, rfl, rfl, rfl, rfl, ?_⟩⟩
      have e : complete (m.pre image) (natText (time n)) g' = m'.fill (time n) g' := by
        unfold complete MPre.fill
        rw [hts, hm.1, hm.2.1, hm.2.2.1, hm.2.2.2]
        rfl
      rw [e] at hre
      have e' : (m.pre image).shot (natText (time n)) = g := by
        rw [hgs]; simp [MPre.pre, hts]
      rw [e'] at hre
      exact hre
  obtain ⟨fs2, ns2, gs2, f1, f2, f3, f4, f5, f6, f7⟩ := C132_each m' hS' readdir d ht hr camPath gridPath p hp
    hd hrd time hI fs' (by
      intro n hn f hf
      obtain ⟨i, hi, rfl⟩ := List.mem_iff_getElem.mp ((e3 n).mpr hn)
      have hlen := e5.length_eq
      have hout := List.forall₂_iff_get.mp e5 |>.2 i hi (by omega)
      obtain ⟨f', g', h1, h2, -⟩ := hload _ (List.getElem_mem hi) _ (by simpa using hout)
      rw [hf] at h1; cases h1
      exact ⟨g', h2⟩)
  -- the listing is the same
  have hns : ns2 = ns := by
    obtain ⟨l, l0, l1, l2, l3, l4⟩ := sorted_listing readdir d ht hr camPath p hp hd hrd
    have hperm : ns2.Perm ns := by
      rw [List.perm_ext_iff_of_nodup f2 e2]
      intro n; rw [f3, e3]
    refine List.Perm.eq_of_pairwise (le := fun a b => Disk.strLt b a = false) ?_ ?_ ?_ hperm
    · intro a b _ _ h1 h2
      by_contra hne
      have : ∀ a b : List Char, Disk.strLt b a = false → Disk.strLt a b = false → a = b := by
        intro a
        induction a with
        | nil => intro b h1 h2; cases b with
          | nil => rfl
          | cons _ _ => simp [Disk.strLt] at h2
        | cons x a ih =>
          intro b h1 h2
          cases b with
          | nil => simp [Disk.strLt] at h1
          | cons y b =>
            simp only [Disk.strLt] at h1 h2
            by_cases hxy : x.toNat < y.toNat
            · rw [if_pos hxy] at h2; cases h2
            · by_cases hyx : y.toNat < x.toNat
              · rw [if_pos hyx] at h1; cases h1
              · rw [if_neg hyx, if_neg hxy] at h1
                rw [if_neg hxy, if_neg hyx] at h2
                have : x = y := Char.toNat_inj.mp (by omega)
                rw [this, ih b h1 h2]
      exact hne (this a b h1 h2)
    · exact f4.imp (fun h => by
        unfold NotAfter at h; rw [← Disk.strLt_iff] at h; simpa using h)
    · exact e4.imp (fun h => by
        unfold NotAfter at h; rw [← Disk.strLt_iff] at h; simpa using h)
  subst hns
  have hfs : fs2 = fs' := by
    funext q
    by_cases hq : ∃ n ∈ ns2, q = csvPath gridPath (time n)
    · obtain ⟨n, hn, rfl⟩ := hq
      obtain ⟨i, hi, rfl⟩ := List.mem_iff_getElem.mp hn
      have hlen := e5.length_eq
      have hout := List.forall₂_iff_get.mp e5 |>.2 i hi (by omega)
      obtain ⟨f', g', h1, h2, -⟩ := hload _ (List.getElem_mem hi) _ (by simpa using hout)
      rw [(f6 _ (List.getElem_mem hi)).1 f' h1, h1]
    · push Not at hq
      exact f7 q hq
  subst hfs
  refine ⟨gs2, f1, ?_⟩
  rw [List.forall₂_iff_get]
  refine ⟨by rw [← e5.length_eq, ← f5.length_eq], ?_⟩
  intro i hi hi'
  have hin : i < ns2.length := by rw [e5.length_eq]; exact hi
  have hout := List.forall₂_iff_get.mp e5 |>.2 i hin hi
  have hout' := List.forall₂_iff_get.mp f5 |>.2 i hin hi'
  obtain ⟨f', g', h1, h2, h3⟩ := hload _ (List.getElem_mem hin) _ (by simpa using hout)
  obtain ⟨g0, hg0, k1, k2⟩ := hout'.1 f' (by simpa using h1)
  rw [h2] at hg0
  cases hg0
  have : gs2.get ⟨i, hi'⟩ = m'.fill (time ns2[i]) g' := by
    cases hdet : g'.detected with
    | true => rw [k1 hdet, (fill_outcome m' _ g').1 hdet]
    | false => rw [k2 hdet, (fill_outcome m' _ g').2 hdet]; rfl
  rw [this]
  simpa using h3

/-! ### Refutations -/

theorem foldlM_congr {α β : Type} (f g : β → α → Except Fault β) (l : List α) (b : β)
    (P : β → Prop) (hb : P b) (h : ∀ b, P b → ∀ a ∈ l, f b a = g b a)
    (hP : ∀ b, P b → ∀ a ∈ l, ∀ b', f b a = .ok b' → P b') :
    l.foldlM f b = l.foldlM g b := by
  induction l generalizing b with
  | nil => rfl
  | cons a l ih =>
    rw [List.foldlM_cons, List.foldlM_cons, h b hb a (by simp)]
    cases hg : g b a with
    | error e => rfl
    | ok b' =>
      exact ih b' (hP b hb a (by simp) b' (by rw [h b hb a (by simp), hg]))
        (fun b hb a ha => h b hb a (by simp [ha])) (fun b hb a ha => hP b hb a (by simp [ha]))

/-- **C132 (stale grids), refuted.** If there is a file with corners for each image, the target and
the detector do not matter: grids of another target, or of other images, are returned. -/
theorem C132_stale_refuted (m m' : MPre K) (readdir : Path → List Name) (d : Disk)
    (ht : Tree d) (hr : Reads readdir d) (camPath gridPath : List Char) (p : Path)
    (hp : Names d camPath p) (hd : d.node p = some .dir) (hrd : d.readable p = true)
    (time : Name → Nat) (hI : ImagesAt d p time) (fs : FileSys K)
    (hL : ∀ n, d.node (p ++ [n]) ≠ none → ∃ f g, fs (csvPath gridPath (time n)) = some f ∧
      loadFile false f = .ok g ∧ g.detected = true) :
    mocapPre m readdir d camPath gridPath fs = mocapPre m' readdir d camPath gridPath fs := by
  obtain ⟨ns, h0, h1, h2, h3, h4⟩ := sorted_listing readdir d ht hr camPath p hp hd hrd
  unfold mocapPre
  simp only
  rw [h1, if_neg (by rw [h0]; simp), if_neg (by rw [h0]; simp)]
  have hstep : ∀ (m : MPre K) (b : FileSys K × List (Grid K)), b.1 = fs → ∀ n ∈ ns,
      ∃ g, (loadFile false ((fs (csvPath gridPath (time n))).getD (.csv [])) = .ok g) ∧
        mocapStep m camPath gridPath b n = .ok (fs, b.2 ++ [g]) := by
    intro m b hb n hn
    obtain ⟨image, hj, he⟩ := mocapStep_named m camPath gridPath b (hI.named n ((h3 n).mp hn))
    obtain ⟨f, g, hf, hg, hdet⟩ := hL n ((h3 n).mp hn)
    rw [hb, hf] at he
    refine ⟨g, by rw [hf]; exact hg, ?_⟩
    rw [he]
    simp only [hg, AprilGrid.ok_bind, (fill_outcome m (time n) g).1 hdet]
  refine foldlM_congr _ _ ns (fs, []) (fun b => b.1 = fs) rfl ?_ ?_
  · intro b hb n hn
    obtain ⟨g, h1, h2⟩ := hstep m b hb n hn
    obtain ⟨g', h1', h2'⟩ := hstep m' b hb n hn
    rw [h1] at h1'; cases h1'
    rw [h2, h2']
  · intro b hb n hn b' hb'
    obtain ⟨g, h1, h2⟩ := hstep m b hb n hn
    rw [h2] at hb'
    cases hb'; rfl

theorem foldlM_error {α β : Type} (f : β → α → Except Fault β) (l : List α) (a : α) (ha : a ∈ l)
    (h : ∀ b r, f b a ≠ .ok r) (b r : β) : l.foldlM f b ≠ .ok r := by
  induction l generalizing b with
  | nil => cases ha
  | cons x l ih =>
    rw [List.foldlM_cons]
    cases hx : f b x with
    | error e => intro h; cases h
    | ok b' =>
      rcases List.mem_cons.mp ha with rfl | ha
      · exact absurd hx (h b b')
      · exact ih ha b'

/-- **C132 (other files), refuted.** One file whose name does not begin with a number, such as
`.DS_Store`, and the preprocessing of the whole directory fails with an exception. -/
theorem C132_other_refuted (m : MPre K) (readdir : Path → List Name) (d : Disk)
    (ht : Tree d) (hr : Reads readdir d) (camPath gridPath : List Char) (p : Path)
    (hp : Names d camPath p) (hd : d.node p = some .dir) (hrd : d.readable p = true)
    (fs : FileSys K) (n : Name) (hn : d.node (p ++ [n]) ≠ none) (hsep : '\\' ∉ n)
    (hno : parseInt n = none) :
    ∀ r, mocapPre m readdir d camPath gridPath fs ≠ .ok r := by
  intro r
  obtain ⟨ns, h0, h1, h2, h3, h4⟩ := sorted_listing readdir d ht hr camPath p hp hd hrd
  unfold mocapPre
  simp only
  rw [h1, if_neg (by rw [h0]; simp)]
  apply foldlM_error _ ns n ((h3 n).mpr hn)
  intro b r
  have hg := (ht.parent p n hn).2
  obtain ⟨dir, hj⟩ := join_name camPath n hg.1 hg.2.2.2 hg.2.1
  unfold mocapStep
  have hs : ∀ c ∈ n, Fs.isSep c = false := by
    intro c hc
    have h1 : c ≠ '/' := fun e => hg.2.1 (e ▸ hc)
    have h2 : c ≠ '\\' := fun e => hsep (e ▸ hc)
    simp [Fs.isSep, h1, h2]
  rw [hj, AprilGrid.ok_bind, (Fs.C20_fname dir n '/' (by decide) hs).1]
  have : stoull n = .error .exn := by unfold stoull; rw [hno]
  rw [this]
  intro h; cases h

/-! ### Loading a directory of grids -/

/-- **C132 (loading).** `load_aprilgrids` yields, for a directory of files that can be loaded, the
grids with corners, in the order of the file names. -/
theorem C132_load (v2 : Bool) (fs : FileSys K) (dir : List Char) (names : List Name)
    (file : Name → File K) (grid : Name → Grid K)
    (h : ∀ n ∈ names, fs (dir ++ '/' :: n) = some (file n) ∧ loadFile v2 (file n) = .ok (grid n)) :
    ∃ ns : List Name, ns.Perm names ∧ ns.Pairwise NotAfter ∧
      loadGrids v2 fs dir (some names) =
        .ok ((ns.filter fun n => (grid n).detected).map fun n => { grid n with init := true }) := by
  refine ⟨Disk.sortNames names, List.perm_insertionSort _ _, ?_, ?_⟩
  · unfold Disk.sortNames
    have : Std.Total (fun a b : Name => Disk.strLt b a = false) := ⟨fun a b => Disk.strLt_total a b⟩
    have : IsTrans Name (fun a b : Name => Disk.strLt b a = false) :=
      ⟨fun a b c h1 h2 => Disk.strLt_trans a b c h1 h2⟩
    refine (List.pairwise_insertionSort (fun a b : Name => Disk.strLt b a = false) _).imp ?_
    intro a b hab hl
    rw [← Disk.strLt_iff] at hl
    rw [hab] at hl; cases hl
  · unfold loadGrids
    simp only
    have key : ∀ (l : List Name) (acc : List (Grid K)), (∀ n ∈ l, n ∈ names) →
        l.foldlM (loadStep v2 fs dir) acc =
          .ok (acc ++ (l.filter fun n => (grid n).detected).map fun n => { grid n with init := true }) := by
      intro l
      induction l with
      | nil => intro acc _; simp [pure, Except.pure]
      | cons n l ih =>
        intro acc hl
        obtain ⟨h1, h2⟩ := h n (hl n (by simp))
        rw [List.foldlM_cons]
        unfold loadStep gridFrom
        rw [h1]
        simp only [h2, AprilGrid.ok_bind]
        rw [show loadStep v2 fs dir = loadStep v2 fs dir from rfl] at ih
        have := ih (if (grid n).detected = true then acc ++ [{ grid n with init := true }] else acc)
          (fun k hk => hl k (by simp [hk]))
        unfold loadStep gridFrom at this
        rw [this]
        cases hdet : (grid n).detected <;> simp [hdet]
    have := key (Disk.sortNames names) [] (fun n hn => (List.perm_insertionSort _ _).mem_iff.mp hn)
    simpa using this

/-- A directory that cannot be listed is fatal, and so is preprocessing one. -/
theorem C132_no_directory (m : MPre K) (readdir : Path → List Name) (d : Disk)
    (ht : Tree d) (hr : Reads readdir d) (camPath gridPath : List Char) (fs : FileSys K) (v2 : Bool)
    (hno : ∀ p, ¬ (Names d camPath p ∧ d.node p = some .dir ∧ d.readable p = true)) :
    mocapPre m readdir d camPath gridPath fs = .error .fatal ∧
    loadGrids v2 fs gridPath none = .error .fatal := by
  refine ⟨?_, rfl⟩
  rcases Disk.C131_list readdir d ht hr camPath [] with ⟨p, h1, h2, h3, -⟩ | ⟨-, h⟩
  · exact absurd ⟨h1, h2, h3⟩ (hno p)
  · unfold mocapPre
    rw [h]; rfl

end Yac.Data
