import Verif.Lemmas.Output

/-!
# Lemmas about the files, the plot information and the messages
-/

namespace Verif.Text
open Verif.Spec

/-! ## Lines and words -/

theorem pieces_ne (sep : Char) (s : Txt) : pieces sep s ≠ [] := by
  cases s with
  | nil => simp [pieces]
  | cons c s =>
    unfold pieces
    split
    · simp
    · split <;> simp

theorem pieces_append (sep : Char) (l s : Txt) (h : sep ∉ l) : pieces sep (l ++ sep :: s) = l :: pieces sep s := by
  induction l with
  | nil => simp [pieces]
  | cons c l ih =>
    have hc : c ≠ sep := fun e => h (e ▸ List.mem_cons_self)
    rw [List.cons_append, pieces, if_neg hc, ih fun m => h (List.mem_cons_of_mem _ m)]

theorem pieces_single (sep : Char) (l : Txt) (h : sep ∉ l) : pieces sep l = [l] := by
  induction l with
  | nil => simp [pieces]
  | cons c l ih =>
    have hc : c ≠ sep := fun e => h (e ▸ List.mem_cons_self)
    rw [pieces, if_neg hc, ih fun m => h (List.mem_cons_of_mem _ m)]

theorem pieces_intercalate (sep : Char) (ls : List Txt) (hne : ls ≠ []) (h : ∀ l ∈ ls, sep ∉ l) :
    pieces sep (List.intercalate [sep] ls) = ls := by
  induction ls with
  | nil => exact absurd rfl hne
  | cons l ls ih =>
    cases ls with
    | nil => simpa [List.intercalate] using pieces_single sep l (h l List.mem_cons_self)
    | cons l' ls =>
      have : List.intercalate [sep] (l :: l' :: ls) = l ++ sep :: List.intercalate [sep] (l' :: ls) := by
        simp [List.intercalate, List.intersperse]
      rw [this, pieces_append sep l _ (h l List.mem_cons_self),
        ih (by simp) fun m hm => h m (List.mem_cons_of_mem _ hm)]

theorem parts_lines (sep : Char) (ls : List Txt) (h : ∀ l ∈ ls, sep ∉ l ∧ l ≠ []) :
    parts sep (ls.flatMap fun l => l ++ [sep]) = ls := by
  induction ls with
  | nil => simp [parts, pieces]
  | cons l ls ih =>
    have h1 := h l List.mem_cons_self
    have : ((l :: ls).flatMap fun l => l ++ [sep]) = l ++ sep :: ls.flatMap fun l => l ++ [sep] := by simp
    unfold parts at ih ⊢
    rw [this, pieces_append sep l _ h1.1, List.filter_cons, if_pos (by simpa using h1.2),
      ih fun m hm => h m (List.mem_cons_of_mem _ hm)]

theorem parts_blanks (sep : Char) (k : Nat) (s : Txt) : parts sep (List.replicate k sep ++ s) = parts sep s := by
  induction k with
  | zero => rfl
  | succ k ih =>
    rw [List.replicate_succ, List.cons_append]
    conv_lhs => unfold parts
    rw [pieces, if_pos rfl, List.filter_cons, if_neg (by simp)]
    exact ih

theorem parts_word (sep : Char) (w : Txt) (h : sep ∉ w) (hne : w ≠ []) : parts sep w = [w] := by
  unfold parts
  rw [pieces_single sep w h]
  simp [hne]

theorem parts_word_cons (sep : Char) (w s : Txt) (h : sep ∉ w) (hne : w ≠ []) : parts sep (w ++ sep :: s) = w :: parts sep s := by
  unfold parts
  rw [pieces_append sep w s h, List.filter_cons, if_pos (by simpa using hne)]

/-- neither a blank nor the end of a line -/
def Vis (s : Txt) : Prop := ∀ c ∈ s, c ≠ ' ' ∧ c ≠ '\n'

theorem Vis.append {s t : Txt} (hs : Vis s) (ht : Vis t) : Vis (s ++ t) := by
  intro c hc
  rcases List.mem_append.1 hc with h | h
  · exact hs c h
  · exact ht c h

theorem Vis.cons {c : Char} {t : Txt} (hc : c ≠ ' ' ∧ c ≠ '\n') (ht : Vis t) : Vis (c :: t) := by
  intro d hd
  rcases List.mem_cons.1 hd with h | h
  · exact h ▸ hc
  · exact ht d h

theorem vis_digits {s : Txt} (h : ∀ c ∈ s, c.isDigit = true) : Vis s := by
  intro c hc
  have := h c hc
  constructor
  · rintro rfl
    exact absurd this (by decide)
  · rintro rfl
    exact absurd this (by decide)

theorem vis_showNat (n : Nat) : Vis (showNat n) := vis_digits (showNat_digit n)

theorem vis_showInt (z : Int) : Vis (showInt z) := by
  unfold showInt
  split
  · exact Vis.cons (by decide) (vis_showNat _)
  · exact vis_showNat _

theorem vis_showSci (p : Nat) (me : Nat × Int) : Vis (showSci p me) := by
  unfold showSci
  refine Vis.append (Vis.append (vis_showNat _) (Vis.cons (by decide) (vis_digits (pad_digit _ _ (showNat_digit _)))))
    (Vis.cons (by decide) (Vis.cons ?_ (vis_digits (pad_digit _ _ (showNat_digit _)))))
  split <;> decide

section
variable {K : Type} [Field K] [LinearOrder K] [FloorRing K]

theorem vis_sci (p : Nat) (x : K) : Vis (sci p x) := by
  unfold sci
  split
  · exact vis_showSci _ _
  · split
    · exact Vis.cons (by decide) (vis_showSci _ _)
    · exact vis_showSci _ _

theorem vis_fixed (p : Nat) (x : K) : Vis (fixed p x) := by
  unfold fixed
  dsimp only
  have h : Vis (showNat ((roundEven (|x| * (10 : K) ^ p)).toNat / 10 ^ p) ++
      '.' :: padLeft '0' p (showNat ((roundEven (|x| * (10 : K) ^ p)).toNat % 10 ^ p))) :=
    Vis.append (vis_showNat _) (Vis.cons (by decide) (vis_digits (pad_digit _ _ (showNat_digit _))))
  split
  · exact Vis.cons (by decide) h
  · exact h

theorem sci_ne (p : Nat) (x : K) : sci p x ≠ [] := by
  have h : ∀ me, showSci p me ≠ [] := by
    intro me
    unfold showSci
    simp [showNat_ne]
  unfold sci
  split
  · exact h _
  · split
    · simp
    · exact h _

end

theorem Vis.no_newline {s : Txt} (h : Vis s) : '\n' ∉ s := fun m => (h _ m).2 rfl
theorem Vis.no_blank {s : Txt} (h : Vis s) : ' ' ∉ s := fun m => (h _ m).1 rfl

/-! ## Files of numbers -/

theorem mapM_forall₂ {α β : Type} (f : α → Option β) (R : α → β → Prop) (l : List α) (h : ∀ a ∈ l, ∃ b, f a = some b ∧ R a b) :
    ∃ bs, l.mapM f = some bs ∧ List.Forall₂ R l bs := by
  induction l with
  | nil => exact ⟨[], rfl, .nil⟩
  | cons a l ih =>
    obtain ⟨b, hb, hR⟩ := h a List.mem_cons_self
    obtain ⟨bs, hbs, hF⟩ := ih fun a' ha => h a' (List.mem_cons_of_mem _ ha)
    exact ⟨b :: bs, by simp [List.mapM_cons, hb, hbs], .cons hR hF⟩

section
variable {K : Type} [Field K] [LinearOrder K] [IsStrictOrderedRing K] [FloorRing K]

omit [LinearOrder K] [IsStrictOrderedRing K] [FloorRing K] in
theorem readNum_showNat (n : ℕ) : readNum (K := K) (showNat n) = some (n : K) := by
  rw [readNum_digit (not_minus (showNat_ne _) (showNat_digit _))]
  have h := takeWhile_all (showNat n) (showNat_digit n)
  unfold readAbs
  dsimp only
  rw [h.1, h.2, if_neg (showNat_ne n), natOf_showNat]
  simp [readExp]

/-- a file of numbers in one column -/
theorem loadtxt_column (sp : ℕ) (l : List K) :
    ∃ ys : List K, loadtxt (column sp l) = some (ys.map fun y => [y]) ∧ List.Forall₂ (Digits 7) l ys := by
  have hp : parts '\n' (column sp l) = l.map fun x => List.replicate sp ' ' ++ sci 7 x := by
    have : column sp l = (l.map fun x => List.replicate sp ' ' ++ sci 7 x).flatMap fun s => s ++ ['\n'] := by
      rw [List.flatMap_map]
      rfl
    rw [this, parts_lines]
    intro s hs
    obtain ⟨x, _, rfl⟩ := List.mem_map.1 hs
    refine ⟨?_, by simp [sci_ne]⟩
    intro m
    rcases List.mem_append.1 m with h | h
    · exact absurd (List.mem_replicate.1 h).2 (by decide)
    · exact (vis_sci 7 x).no_newline h
  obtain ⟨ys, h1, h2⟩ := mapM_forall₂ (fun x : K => readNum (K := K) (sci 7 x)) (Digits 7) l
    fun x _ => readNum_sci 7 (by norm_num) x
  refine ⟨ys, ?_, h2⟩
  unfold loadtxt
  rw [hp]
  clear hp
  induction l generalizing ys with
  | nil =>
    cases h2
    rfl
  | cons x l ih =>
    cases h2 with
    | @cons _ y _ ys' hR hF =>
      rw [List.mapM_cons] at h1
      obtain ⟨y0, hy, h1⟩ := Option.bind_eq_some_iff.1 h1
      obtain ⟨ys0, hys, h1⟩ := Option.bind_eq_some_iff.1 h1
      simp only [Option.pure_def, Option.some.injEq, List.cons.injEq] at h1
      obtain ⟨rfl, rfl⟩ := h1
      rw [List.map_cons, List.mapM_cons, ih _ hys hF, parts_blanks, parts_word ' ' _ (vis_sci 7 x).no_blank (sci_ne 7 x)]
      simp [List.mapM_cons, hy]

/-- a file of numbered values; `blanks k` blanks in front of line `k` -/
theorem loadtxt_numbered (blanks : ℕ → ℕ) (l : List K) (n : ℕ) :
    ∃ ys : List K, loadtxt ((l.zipIdx n).flatMap fun e =>
        List.replicate (blanks e.2) ' ' ++ showNat e.2 ++ "  ".toList ++ sci 7 e.1 ++ ['\n'])
      = some ((ys.zipIdx n).map fun e => [(e.2 : K), e.1]) ∧ List.Forall₂ (Digits 7) l ys := by
  have hp : ∀ (l : List K) (n : ℕ), parts '\n' ((l.zipIdx n).flatMap fun e =>
        List.replicate (blanks e.2) ' ' ++ showNat e.2 ++ "  ".toList ++ sci 7 e.1 ++ ['\n'])
      = (l.zipIdx n).map fun e => List.replicate (blanks e.2) ' ' ++ showNat e.2 ++ "  ".toList ++ sci 7 e.1 := by
    intro l n
    have : ((l.zipIdx n).flatMap fun e =>
        List.replicate (blanks e.2) ' ' ++ showNat e.2 ++ "  ".toList ++ sci 7 e.1 ++ ['\n'])
        = ((l.zipIdx n).map fun e => List.replicate (blanks e.2) ' ' ++ showNat e.2 ++ "  ".toList ++ sci 7 e.1).flatMap
          fun s => s ++ ['\n'] := by
      rw [List.flatMap_map]
    rw [this, parts_lines]
    intro s hs
    obtain ⟨e, _, rfl⟩ := List.mem_map.1 hs
    refine ⟨?_, by simp⟩
    intro m
    rcases List.mem_append.1 m with h | h
    · rcases List.mem_append.1 h with h | h
      · rcases List.mem_append.1 h with h | h
        · exact absurd (List.mem_replicate.1 h).2 (by decide)
        · exact (vis_showNat _).no_newline h
      · exact absurd h (by decide)
    · exact (vis_sci 7 _).no_newline h
  unfold loadtxt
  rw [hp]
  clear hp
  induction l generalizing n with
  | nil => exact ⟨[], rfl, .nil⟩
  | cons x l ih =>
    obtain ⟨ys, h1, h2⟩ := ih (n + 1)
    obtain ⟨y, hy, hR⟩ := readNum_sci 7 (by norm_num) x
    refine ⟨y :: ys, ?_, .cons hR h2⟩
    have hw : parts ' ' (List.replicate (blanks n) ' ' ++ showNat n ++ "  ".toList ++ sci 7 x) = [showNat n, sci 7 x] := by
      rw [List.append_assoc, List.append_assoc, parts_blanks]
      show parts ' ' (showNat n ++ ' ' :: (List.replicate 1 ' ' ++ sci 7 x)) = _
      rw [parts_word_cons ' ' _ _ (vis_showNat n).no_blank (showNat_ne n), parts_blanks,
        parts_word ' ' _ (vis_sci 7 x).no_blank (sci_ne 7 x)]
    rw [List.zipIdx_cons, List.map_cons, List.mapM_cons, h1, hw, List.zipIdx_cons, List.map_cons]
    simp [List.mapM_cons, readNum_showNat, hy]

end

/-- nine blanks and `{k:3d}` -/
theorem blanks_show3 (k : ℕ) : List.replicate 9 ' ' ++ show3 k = List.replicate (9 + (3 - (showNat k).length)) ' ' ++ showNat k := by
  unfold show3 padLeft
  rw [← List.append_assoc, ← List.replicate_add]

/-! ## Directories -/

theorem write_same (d : Dir) (n c : Txt) : d.write n c n = some c := if_pos rfl

theorem write_other (d : Dir) (n m c : Txt) (h : m ≠ n) : d.write n c m = d m := if_neg h

theorem fileName_ne {a b : String} (i j : Int) (h : a.toList.head? ≠ b.toList.head?) (ha : a.toList ≠ []) (hb : b.toList ≠ []) :
    fileName a i ≠ fileName b j := by
  intro e
  apply h
  have := congrArg List.head? e
  unfold fileName at this
  rw [List.append_assoc, List.append_assoc, List.head?_append_of_ne_nil _ ha, List.head?_append_of_ne_nil _ hb] at this
  exact this

section
variable {K : Type} [Field K] [LinearOrder K] [FloorRing K]

/-- the directory after the films -/
theorem films_written (fs : List (Int × List K × List K)) (hnd : (fs.map Prod.fst).Nodup) (d : Dir) :
    (∀ f ∈ fs, (fs.foldl (fun d f => saveProfile f.2.2 f.1 (savePhaseSpace f.2.1 f.1 d)) d) (fileName "image" f.1)
        = some (column 2 f.2.1)
      ∧ (fs.foldl (fun d f => saveProfile f.2.2 f.1 (savePhaseSpace f.2.1 f.1 d)) d) (fileName "profile" f.1)
        = some (column 1 f.2.2))
    ∧ ∀ n, (∀ f ∈ fs, n ≠ fileName "image" f.1 ∧ n ≠ fileName "profile" f.1) →
      (fs.foldl (fun d f => saveProfile f.2.2 f.1 (savePhaseSpace f.2.1 f.1 d)) d) n = d n := by
  have hip : ∀ a b, fileName "image" a ≠ fileName "profile" b := fun a b => fileName_ne a b (by decide) (by decide) (by decide)
  induction fs using List.reverseRecOn with
  | nil => simp
  | append_singleton fs g ih =>
    rw [List.map_append, List.nodup_append] at hnd
    obtain ⟨h1, h2⟩ := ih hnd.1
    have hd : ∀ f ∈ fs, f.1 ≠ g.1 := fun f hf => hnd.2.2 f.1 (List.mem_map_of_mem hf) g.1 (by simp)
    rw [List.foldl_append, List.foldl_cons, List.foldl_nil]
    refine ⟨?_, ?_⟩
    · intro f hf
      rcases List.mem_append.1 hf with hf | hf
      · have hne := hd f hf
        refine ⟨?_, ?_⟩
        · unfold saveProfile savePhaseSpace
          rw [write_other _ _ _ _ (hip _ _), write_other _ _ _ _ fun e => hne (fileName_inj e)]
          exact (h1 f hf).1
        · unfold saveProfile savePhaseSpace
          rw [write_other _ _ _ _ (fun e => hne (fileName_inj e)), write_other _ _ _ _ fun e => hip _ _ e.symm]
          exact (h1 f hf).2
      · rw [List.mem_singleton] at hf
        subst hf
        refine ⟨?_, ?_⟩
        · unfold saveProfile savePhaseSpace
          rw [write_other _ _ _ _ (hip _ _), write_same]
        · unfold saveProfile
          rw [write_same]
    · intro n hn
      have hg := hn g (by simp)
      unfold saveProfile savePhaseSpace
      rw [write_other _ _ _ _ hg.2, write_other _ _ _ _ hg.1]
      exact h2 n fun f hf => hn f (by simp [hf])

end

/-! ## Messages -/

theorem times_succ {σ : Type} (n : ℕ) (f : σ → σ) (s : σ) : times (n + 1) f s = f (times n f s) := by
  unfold times
  rw [List.range_succ, List.foldl_append]
  rfl

/-- after `k` turns upwards -/
theorem up_times (d : ℕ) (r : ℕ) (ref p0 : ℤ) (out : List Txt) (k : ℕ) :
    times k (upPrint d ref) ⟨(r : ℤ) * d, p0, out⟩
      = ⟨(r : ℤ) * d + k, p0 + (k / d : ℕ), out ++ (List.range (k / d)).map fun i : ℕ => status ref (p0 + 1 + i)⟩ := by
  induction k with
  | zero => simp [times]
  | succ k ih =>
    rw [times_succ, ih]
    unfold upPrint
    dsimp only
    have hdiv : ((r : ℤ) * d + k + 1) % d = 0 ↔ d ∣ k + 1 := by
      rw [show (r : ℤ) * d + k + 1 = ((k + 1 : ℕ) : ℤ) + d * r by push_cast; ring, Int.add_mul_emod_self_left]
      omega
    by_cases h : d ∣ k + 1
    · rw [if_pos (hdiv.2 h), Nat.succ_div, if_pos h, List.range_succ, List.map_append]
      have h1 : p0 + ((k / d : ℕ) : ℤ) + 1 = p0 + ((k / d + 1 : ℕ) : ℤ) := by push_cast; ring
      have h2 : p0 + ((k / d : ℕ) : ℤ) + 1 = p0 + 1 + ((k / d : ℕ) : ℤ) := by ring
      have h3 : (r : ℤ) * d + k + 1 = (r : ℤ) * d + (k + 1 : ℕ) := by push_cast; ring
      rw [List.append_assoc, h3]
      conv_lhs => enter [3, 2, 2]; rw [h2]
      rw [h1]
      rfl
    · rw [if_neg fun e => h (hdiv.1 e), Nat.succ_div, if_neg h]
      rw [show (r : ℤ) * d + k + 1 = (r : ℤ) * d + (k + 1 : ℕ) by push_cast; ring]
      rfl

/-- after `k` turns downwards -/
theorem down_times (d : ℕ) (r : ℕ) (ref p0 : ℤ) (out : List Txt) (k : ℕ) :
    times k (downPrint d ref) ⟨(r : ℤ) * d, p0, out⟩
      = ⟨(r : ℤ) * d - k, p0 - (k / d : ℕ), out ++ (List.range (k / d)).map fun i : ℕ => status ref (p0 - 1 - i)⟩ := by
  induction k with
  | zero => simp [times]
  | succ k ih =>
    rw [times_succ, ih]
    unfold downPrint
    dsimp only
    have hdiv : ((r : ℤ) * d - k - 1) % d = 0 ↔ d ∣ k + 1 := by
      rw [← Int.dvd_iff_emod_eq_zero, show (r : ℤ) * d - k - 1 = d * r - ((k + 1 : ℕ) : ℤ) by push_cast; ring,
        dvd_sub_right ⟨_, rfl⟩]
      exact_mod_cast Iff.rfl
    by_cases h : d ∣ k + 1
    · rw [if_pos (hdiv.2 h), Nat.succ_div, if_pos h, List.range_succ, List.map_append]
      have h1 : p0 - ((k / d : ℕ) : ℤ) - 1 = p0 - ((k / d + 1 : ℕ) : ℤ) := by push_cast; ring
      have h2 : p0 - ((k / d : ℕ) : ℤ) - 1 = p0 - 1 - ((k / d : ℕ) : ℤ) := by ring
      have h3 : (r : ℤ) * d - k - 1 = (r : ℤ) * d - (k + 1 : ℕ) := by push_cast; ring
      rw [List.append_assoc, h3]
      conv_lhs => enter [3, 2, 2]; rw [h2]
      rw [h1]
      rfl
    · rw [if_neg fun e => h (hdiv.1 e), Nat.succ_div, if_neg h]
      rw [show (r : ℤ) * d - k - 1 = (r : ℤ) * d - (k + 1 : ℕ) by push_cast; ring]
      rfl

theorem trackOut_eq (d P r : ℕ) (hd : 0 < d) (hr : r < P) :
    trackOut d P r = ((List.range (P - 1 - r)).map fun i : ℕ => status r ((r : ℤ) + 1 + i))
      ++ (List.range r).map fun i : ℕ => status r ((r : ℤ) - 1 - i) := by
  unfold trackOut
  have h1 : ((d : ℤ) * ((P : ℤ) - 1) - (r : ℤ) * d).toNat = (P - 1 - r) * d := by
    have : (d : ℤ) * ((P : ℤ) - 1) - (r : ℤ) * d = (((P - 1 - r) * d : ℕ) : ℤ) := by
      push_cast
      rw [show ((P - 1 - r : ℕ) : ℤ) = (P : ℤ) - 1 - r by omega]
      ring
    rw [this, Int.toNat_natCast]
  have h2 : ((r : ℤ) * d).toNat = r * d := by
    rw [show (r : ℤ) * d = ((r * d : ℕ) : ℤ) by push_cast; ring, Int.toNat_natCast]
  dsimp only
  rw [h1, h2, up_times d, down_times d, Nat.mul_div_cancel _ hd, Nat.mul_div_cancel _ hd]
  simp

/-! ## Labels and words -/

theorem filter_vis (s : Txt) (h : ',' ∉ s) : (s ++ [',']).filter (· ≠ ',') = s := by
  rw [List.filter_append]
  have : s.filter (· ≠ ',') = s := by
    rw [List.filter_eq_self]
    intro c hc
    simp only [ne_eq, decide_not, Bool.not_eq_eq_eq_not, Bool.not_true, decide_eq_false_iff_not]
    rintro rfl
    exact h hc
  rw [this]
  simp

theorem no_comma (z : ℤ) : ',' ∉ showInt z := by
  have h : ∀ n, ',' ∉ showNat n := fun n m => absurd (showNat_digit n _ m) (by decide)
  unfold showInt
  split
  · intro m
    rcases List.mem_cons.1 m with e | e
    · exact absurd e (by decide)
    · exact h _ e
  · exact h _

theorem showInt_ne (z : ℤ) : showInt z ≠ [] := by
  unfold showInt
  split
  · simp
  · exact showNat_ne _

theorem slices_status (ref dest : ℤ) : slices (status ref dest) = some (ref + 1, dest + 1) := by
  have hp : ∃ t, parts ' ' (status ref dest) = "Tracking".toList :: "from".toList :: "time".toList :: "slice".toList ::
      showInt (ref + 1) :: "to".toList :: (showInt (dest + 1) ++ [',']) :: t := by
    unfold status
    rw [List.append_assoc, List.append_assoc, List.append_assoc]
    refine ⟨parts ' ' "  0.000% went outside the image width.".toList, ?_⟩
    show parts ' ' (List.replicate 1 ' ' ++ ("Tracking".toList ++ ' ' :: ("from".toList ++ ' ' :: ("time".toList ++
      ' ' :: ("slice".toList ++ ' ' :: (List.replicate 1 ' ' ++ (showInt (ref + 1) ++ ' ' :: ("to".toList ++
      ' ' :: (List.replicate 1 ' ' ++ (showInt (dest + 1) ++ ([','] ++ ' ' :: "  0.000% went outside the image width.".toList))))))))))) = _
    rw [parts_blanks, parts_word_cons _ _ _ (by decide) (by decide), parts_word_cons _ _ _ (by decide) (by decide),
      parts_word_cons _ _ _ (by decide) (by decide), parts_word_cons _ _ _ (by decide) (by decide), parts_blanks,
      parts_word_cons _ _ _ (vis_showInt _).no_blank (showInt_ne _), parts_word_cons _ _ _ (by decide) (by decide),
      parts_blanks, ← List.append_assoc, parts_word_cons _ _ _ ?_ (by simp)]
    exact (Vis.append (vis_showInt _) (by decide : ∀ c ∈ [','], c ≠ ' ' ∧ c ≠ '\n')).no_blank
  obtain ⟨t, ht⟩ := hp
  unfold slices
  rw [ht]
  dsimp only
  rw [readInt_showInt, filter_vis _ (no_comma _), readInt_showInt]
  rfl

theorem field_intercalate (label : Txt) (ls : List Txt) (hne : ls ≠ []) (h : ∀ l ∈ ls, '\n' ∉ l) :
    field label (List.intercalate ['\n'] ls) = (ls.find? fun l => label.isPrefixOf l).map fun l => l.drop label.length := by
  unfold field
  rw [pieces_intercalate _ _ hne h]

section
variable {K : Type} [Field K] [LinearOrder K] [FloorRing K]

theorem info_no_newline (m : InfoMach K) (dE c ph : K) (i j : ℤ) : ∀ l ∈ infoLines m dE c ph i j, '\n' ∉ l := by
  have a : ∀ (s t : Txt), '\n' ∉ s → '\n' ∉ t → '\n' ∉ s ++ t := fun s t hs ht h => (List.mem_append.1 h).elim hs ht
  unfold infoLines
  simp only [List.forall_mem_cons, List.not_mem_nil, false_imp_iff, implies_true, and_true]
  have n1 := fun n => (vis_showNat n).no_newline
  have n2 := fun n => (vis_showInt n).no_newline
  have n3 := fun p (x : K) => (vis_sci p x).no_newline
  have n4 := fun p (x : K) => (vis_fixed p x).no_newline
  refine ⟨by decide, by decide, a _ _ (by decide) (n1 _), by decide, a _ _ (by decide) (n1 _), by decide,
    a _ _ (by decide) (n3 _ _), by decide, a _ _ (by decide) (n3 _ _), by decide, a _ _ (by decide) (n3 _ _), by decide,
    a _ _ (by decide) (n4 _ _), a _ _ (by decide) (n4 _ _), by decide, a _ _ (by decide) (n4 _ _), a _ _ (by decide) (n4 _ _),
    a _ _ (by decide) (n4 _ _), by decide, a _ _ (a _ _ (a _ _ (by decide) (n2 _)) (by decide)) (n4 _ _), by decide,
    a _ _ (a _ _ (a _ _ (a _ _ (a _ _ (a _ _ (a _ _ (by decide) (n2 _)) (by decide)) (n2 _)) (by decide)) (n2 _)) (by decide)) (n2 _)⟩

theorem field_info (m : InfoMach K) (dE c ph : K) (i j : ℤ) (label : Txt) :
    field label (List.intercalate ['\n'] (infoLines m dE c ph i j))
      = ((infoLines m dE c ph i j).find? fun l => label.isPrefixOf l).map fun l => l.drop label.length :=
  field_intercalate _ _ (by simp [infoLines]) (info_no_newline m dE c ph i j)

end

end Verif.Text
