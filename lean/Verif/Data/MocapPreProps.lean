import Verif.Data.MocapPreModel
import Verif.Data.PreLemmas
import Verif.Disk.DirProps

/-!
# C132: preprocessing for the calibration against motion capture
-/

namespace Yac.Data

open Yac.AprilGrid (Grid Line Op)
open Yac.AprilGrid.Spec (Valid)
open Yac.Text (isDig natOf natText parseInt isSpace)

variable {K : Type} [Field K]

/-! ### Specification -/

/-- The file name of an image taken at `t`: its digits, then something that is not a digit. -/
structure Named (name : List Char) (t : Nat) : Prop where
  text : ∃ ds rest, name = ds ++ rest ∧ ds ≠ [] ∧ (∀ c ∈ ds, isDig c = true) ∧
    (∀ c, rest.head? = some c → isDig c = false) ∧ t = natOf ds
  file : ∀ c ∈ name, c ≠ '/' ∧ c ≠ '\\'
  small : t < 2 ^ 63

/-- The detector returns a new grid of the target with the timestamp of the image, to which
corners of the target have been added. -/
def MPre.Shots (m : MPre K) : Prop :=
  ∀ t path, ∃ cs : List ((Int × Int) × (K × K)), (∀ c ∈ cs, Valid m.rows m.cols c.1.1 c.1.2) ∧
    AprilGrid.run (AprilGrid.new t m.rows m.cols m.size m.spacing)
      (cs.map (fun c => .add c.1.1 c.1.2 c.2)) = .ok (m.shot t path)

/-- The grid of the image `name` taken at `t`: the saved one if there is one (with the target filled
in if it has no corners), otherwise what the detector sees. -/
def MPre.Outcome (m : MPre K) (fs : FileSys K) (camPath gridPath : List Char)
    (it : List Char × Nat) (g : Grid K) : Prop :=
  (∀ f, fs (csvPath gridPath it.2) = some f → ∃ g0, loadFile false f = .ok g0 ∧
    (g0.detected = true → g = g0) ∧
    (g0.detected = false → g = withTarget g0 it.2 m.rows m.cols m.size m.spacing)) ∧
  (fs (csvPath gridPath it.2) = none →
    ∃ image, Fs.pathsJoin camPath it.1 = .ok image ∧ g = m.shot it.2 image)

/-- A file that was there stays as it was, otherwise it is the grid the detector saw. -/
def MPre.Kept (m : MPre K) (fs fs' : FileSys K) (camPath gridPath : List Char)
    (it : List Char × Nat) : Prop :=
  (∀ f, fs (csvPath gridPath it.2) = some f → fs' (csvPath gridPath it.2) = some f) ∧
  (fs (csvPath gridPath it.2) = none → ∃ image ls, Fs.pathsJoin camPath it.1 = .ok image ∧
    AprilGrid.save m.p6 m.p10 (m.shot it.2 image) = .ok ls ∧
    fs' (csvPath gridPath it.2) = some (.csv ls))

/-! ### File names -/

theorem pathSplit_ne (p : List Char) : Fs.pathSplit p ≠ [] := by
  unfold Fs.pathSplit
  have : ∀ (l s : List Char) (acc : List (List Char)), Fs.splitLoop l s acc ≠ [] := by
    intro l
    induction l with
    | nil => intro s acc; simp [Fs.splitLoop]
    | cons c l ih =>
      intro s acc
      simp only [Fs.splitLoop]
      split_ifs <;> exact ih _ _
  exact this p [] []

theorem pathSplit_name (n : List Char) (h : '/' ∉ n) : Fs.pathSplit n = [n] := by
  unfold Fs.pathSplit
  have : ∀ (l s : List Char), '/' ∉ l → Fs.splitLoop l s [] = [s ++ l] := by
    intro l
    induction l with
    | nil => intro s _; simp [Fs.splitLoop]
    | cons c l ih =>
      intro s hl
      have hc : c ≠ '/' := fun e => hl (by simp [e])
      simp only [Fs.splitLoop]
      rw [if_neg (fun e => hc e.2), if_pos hc, ih _ (fun e => hl (by simp [e]))]
      simp
  simpa using this n [] h

/-- The path of an image ends in a slash and its name. -/
theorem join_name (camPath name : List Char) (hne : name ≠ []) (hup : name ≠ ['.', '.'])
    (h : '/' ∉ name) : ∃ dir, Fs.pathsJoin camPath name = .ok (dir ++ '/' :: name) := by
  unfold Fs.pathsJoin
  rw [pathSplit_name name h]
  have hf : ([name].filter (fun x => decide (x = ['.', '.']))).length = 0 := by simp [hup]
  simp only [hf]
  unfold Fs.popN
  rw [if_pos (Nat.zero_le _)]
  rw [AprilGrid.ok_bind]
  simp only [Nat.sub_zero, List.take_length, List.drop_zero]
  obtain ⟨l, w, hl⟩ : ∃ l w, Fs.pathSplit camPath = l ++ [w] :=
    ⟨_, _, (List.dropLast_append_getLast (pathSplit_ne camPath)).symm⟩
  rw [hl]
  have e : (if camPath.head? = some '/' then ['/'] else []) ++ Fs.joinSlash (l ++ [w]) ++
      Fs.joinSlash [name] =
      ((if camPath.head? = some '/' then ['/'] else []) ++ Fs.joinSlash l ++ w) ++ '/' :: name ++ ['/'] := by
    simp [Fs.joinSlash]
  rw [e]
  generalize (if camPath.head? = some '/' then ['/'] else []) ++ Fs.joinSlash l ++ w = X
  refine ⟨X, ?_⟩
  obtain ⟨a, c, hc⟩ : ∃ a c, name = a ++ [c] :=
    ⟨_, _, (List.dropLast_append_getLast hne).symm⟩
  have hcs : c ≠ '/' := fun e => h (by rw [hc]; simp [e])
  have key : ∀ (x : Char) (L : List Char), L.getLast? = some c →
      Fs.trimEnd (x :: L ++ ['/']) = .ok (x :: L) := by
    intro x L hL
    obtain ⟨L', rfl⟩ : ∃ L', L = L' ++ [c] := by
      have hLn : L ≠ [] := by rintro rfl; simp at hL
      refine ⟨L.dropLast, ?_⟩
      have := List.dropLast_append_getLast hLn
      rw [List.getLast?_eq_some_getLast hLn] at hL
      rw [Option.some.inj hL] at this
      exact this.symm
    simp [Fs.trimEnd, hcs]
  cases X with
  | nil => exact key '/' name (by rw [hc]; simp)
  | cons x X =>
    have := key x (X ++ '/' :: name) (by
      rw [List.getLast?_append, hc, ← List.cons_append, List.getLast?_append]; rfl)
    simpa using this

theorem named_ne {name : List Char} {t : Nat} (h : Named name t) :
    name ≠ [] ∧ name ≠ ['.', '.'] ∧ '/' ∉ name ∧ ∀ c ∈ name, Fs.isSep c = false := by
  obtain ⟨ds, rest, rfl, hne, hd, _⟩ := h.text
  refine ⟨by simp [hne], ?_, fun hc => (h.file _ hc).1 rfl, ?_⟩
  · intro he
    obtain ⟨c, ds', rfl⟩ := List.exists_cons_of_ne_nil hne
    have hc : c = '.' := by simpa using congrArg List.head? he
    have := hd c (by simp)
    rw [hc] at this
    exact absurd this (by decide)
  · intro c hc
    simp [Fs.isSep, (h.file c hc).1, (h.file c hc).2]

theorem stoull_named {name : List Char} {t : Nat} (h : Named name t) : stoull name = .ok t := by
  obtain ⟨ds, rest, rfl, hne, hd, hr, ht⟩ := h.text
  obtain ⟨c, ds', hcons⟩ := List.exists_cons_of_ne_nil hne
  have hcd : isDig c = true := hd c (by simp [hcons])
  have hspace : isSpace c = false := by
    simp only [isDig, Bool.and_eq_true, decide_eq_true_eq] at hcd
    have h1 : c.toNat ≠ 11 ∧ c.toNat ≠ 12 := by omega
    have h2 : ∀ x : Char, x.toNat < 48 → c ≠ x := by rintro x hx rfl; omega
    simp [isSpace, h1, h2 ' ' (by decide), h2 '\t' (by decide), h2 '\n' (by decide),
      h2 '\r' (by decide)]
  have hsign : Text.sign (ds ++ rest) = (false, ds ++ rest) := by
    have h2 : ∀ x : Char, x.toNat < 48 → c ≠ x := by
      simp only [isDig, Bool.and_eq_true, decide_eq_true_eq] at hcd
      rintro x hx rfl; omega
    rw [hcons, List.cons_append]
    unfold Text.sign
    split
    · rename_i heq; simp at heq; exact absurd heq.1 (h2 '-' (by decide))
    · rename_i heq; simp at heq; exact absurd heq.1 (h2 '+' (by decide))
    · rfl
  have htake : (ds ++ rest).takeWhile isDig = ds := by
    rw [List.takeWhile_append_of_pos hd]
    cases rest with
    | nil => simp
    | cons x l => simp [hr x rfl]
  have hdrop : (ds ++ rest).dropWhile isSpace = ds ++ rest := by
    rw [hcons, List.cons_append, List.dropWhile_cons_of_neg (by simp [hspace])]
  unfold stoull parseInt
  simp only [hdrop, hsign, htake]
  rw [if_neg hne]
  have := h.small
  simp only
  rw [if_pos (by omega)]
  simp [ht]

theorem signed64_small {t : Nat} (h : t < 2 ^ 63) : signed64 t = t := by
  unfold signed64; rw [if_pos h]

theorem csvPath_inj {gridPath : List Char} {a b : Nat} (h : csvPath gridPath a = csvPath gridPath b) :
    a = b := by
  unfold csvPath at h
  have h1 := List.append_cancel_left h
  rw [List.cons.injEq] at h1
  have h2 := List.append_cancel_right h1.2
  have := congrArg natOf h2
  rwa [Text.natOf_natText, Text.natOf_natText] at this

/-! ### The loop -/

theorem mocapStep_named (m : MPre K) (camPath gridPath : List Char)
    (acc : FileSys K × List (Grid K)) {name : List Char} {t : Nat} (h : Named name t) :
    ∃ image, Fs.pathsJoin camPath name = .ok image ∧
      mocapStep m camPath gridPath acc name =
        match acc.1 (csvPath gridPath t) with
        | some f => loadFile false f >>= fun g => .ok (acc.1, acc.2 ++ [m.fill t g])
        | none => AprilGrid.save m.p6 m.p10 (m.shot t image) >>= fun ls =>
          .ok (put acc.1 (csvPath gridPath t) (.csv ls), acc.2 ++ [m.shot t image]) := by
  obtain ⟨h1, h2, h3, h4⟩ := named_ne h
  obtain ⟨dir, hj⟩ := join_name camPath name h1 h2 h3
  refine ⟨_, hj, ?_⟩
  unfold mocapStep
  rw [hj, AprilGrid.ok_bind, (Fs.C20_fname dir name '/' (by decide) h4).1, stoull_named h,
    AprilGrid.ok_bind, signed64_small h.small]
  rfl

theorem fill_outcome (m : MPre K) (t : Int) (g0 : Grid K) :
    (g0.detected = true → m.fill t g0 = g0) ∧
    (g0.detected = false → m.fill t g0 = withTarget g0 t m.rows m.cols m.size m.spacing) := by
  unfold MPre.fill
  constructor
  · intro h; rw [if_neg (by simp [h])]
  · intro h; rw [if_pos h]

theorem mocap_loop (m : MPre K) (fs0 : FileSys K) (camPath gridPath : List Char)
    (hsave : ∀ t : Nat, t < 2 ^ 63 → ∀ path, ∃ ls, AprilGrid.save m.p6 m.p10 (m.shot t path) = .ok ls) :
    ∀ (items : List (List Char × Nat)) (fs : FileSys K) (out : List (Grid K)),
      (∀ it ∈ items, Named it.1 it.2) → (items.map Prod.snd).Nodup →
      (∀ it ∈ items, fs (csvPath gridPath it.2) = fs0 (csvPath gridPath it.2)) →
      (∀ it ∈ items, ∀ f, fs0 (csvPath gridPath it.2) = some f → ∃ g, loadFile false f = .ok g) →
      ∃ fs' gs, (items.map Prod.fst).foldlM (mocapStep m camPath gridPath) (fs, out) =
          .ok (fs', out ++ gs) ∧
        List.Forall₂ (m.Outcome fs0 camPath gridPath) items gs ∧
        (∀ it ∈ items, m.Kept fs0 fs' camPath gridPath it) ∧
        ∀ p, (∀ it ∈ items, p ≠ csvPath gridPath it.2) → fs' p = fs p := by
  intro items
  induction items with
  | nil => intro fs out _ _ _ _; exact ⟨fs, [], by simp [pure, Except.pure], .nil, by simp, fun _ _ => rfl⟩
  | cons it items ih =>
    intro fs out hn hd hf hl
    obtain ⟨hd1, hd2⟩ := List.nodup_cons.mp (by rw [List.map_cons] at hd; exact hd)
    have hname := hn it (by simp)
    have hpath : ∀ it' ∈ items, csvPath gridPath it'.2 ≠ csvPath gridPath it.2 := by
      intro it' hit' he
      exact hd1 (List.mem_map.mpr ⟨it', hit', csvPath_inj he⟩)
    obtain ⟨image, hj, hstep⟩ := mocapStep_named m camPath gridPath (fs, out) hname
    rw [List.map_cons, List.foldlM_cons, hstep]
    simp only [hf it (by simp)]
    cases hx : fs0 (csvPath gridPath it.2) with
    | some f =>
      obtain ⟨g0, hg0⟩ := hl it (by simp) f hx
      simp only [hg0, AprilGrid.ok_bind]
      obtain ⟨fs', gs, h1, h2, h3, h4⟩ := ih fs (out ++ [m.fill it.2 g0])
        (fun i hi => hn i (by simp [hi])) hd2 (fun i hi => hf i (by simp [hi]))
        (fun i hi => hl i (by simp [hi]))
      refine ⟨fs', m.fill it.2 g0 :: gs, by rw [h1]; simp, .cons ?_ h2, ?_, ?_⟩
      · refine ⟨fun f' hf' => ?_, fun h => by rw [hx] at h; cases h⟩
        rw [hx] at hf'; cases hf'
        exact ⟨g0, hg0, fill_outcome m it.2 g0⟩
      · intro i hi
        rcases List.mem_cons.mp hi with rfl | hi
        · refine ⟨fun f' hf' => ?_, fun h => by rw [hx] at h; cases h⟩
          rw [h4 _ (fun i' hi' => (hpath i' hi').symm), hf i (by simp), hf']
        · exact h3 i hi
      · intro p hp
        exact h4 p (fun i hi => hp i (by simp [hi]))
    | none =>
      obtain ⟨ls, hls⟩ := hsave it.2 hname.small image
      simp only [hls, AprilGrid.ok_bind]
      obtain ⟨fs', gs, h1, h2, h3, h4⟩ := ih (put fs (csvPath gridPath it.2) (.csv ls))
        (out ++ [m.shot it.2 image]) (fun i hi => hn i (by simp [hi])) hd2
        (fun i hi => by rw [put_other _ _ (hpath i hi)]; exact hf i (by simp [hi]))
        (fun i hi => hl i (by simp [hi]))
      refine ⟨fs', m.shot it.2 image :: gs, by rw [h1]; simp, .cons ?_ h2, ?_, ?_⟩
      · exact ⟨fun f' hf' => (by rw [hx] at hf'; cases hf'), fun _ => ⟨image, hj, rfl⟩⟩
      · intro i hi
        rcases List.mem_cons.mp hi with rfl | hi
        · refine ⟨fun f' hf' => (by rw [hx] at hf'; cases hf'), fun _ => ⟨image, ls, hj, hls, ?_⟩⟩
          rw [h4 _ (fun i' hi' => (hpath i' hi').symm), put_same]
        · exact h3 i hi
      · intro p hp
        rw [h4 p (fun i hi => hp i (by simp [hi])), put_other _ _ (hp it (by simp))]

/-- The detector for one path, as in the model of `calib_data_preprocess`. -/
def MPre.pre (m : MPre K) (path : List Char) : Pre K :=
  ⟨m.rows, m.cols, m.size, m.spacing, false, fun n => m.shot (tsOf n) path, m.p6, m.p10⟩

theorem MPre.Shots.pre {m : MPre K} (h : m.Shots) (path : List Char) : Yac.Data.Shots (m.pre path) :=
  fun n => h (tsOf n) path

/-- Timestamps below 2^63 have at most 19 digits. -/
theorem tsOf_natText {t : Nat} (h : t < 2 ^ 63) : tsOf (natText t) = t := by
  have hlen : (natText t).length ≤ 19 := by
    unfold natText
    split_ifs
    · simp
    · rw [List.length_map, List.length_reverse, Nat.digits_length_le_iff (by norm_num)]
      omega
  unfold tsOf tsStr
  rw [List.take_of_length_le hlen, Text.natOf_natText, if_pos h]

theorem MPre.Shots.save {m : MPre K} (h : m.Shots) (t : Nat) (ht : t < 2 ^ 63) (path : List Char) :
    ∃ ls, AprilGrid.save m.p6 m.p10 (m.shot t path) = .ok ls := by
  have := Yac.Data.Shots.save (h.pre path) (natText t)
  simpa [MPre.pre, tsOf_natText ht] using this

end Yac.Data
