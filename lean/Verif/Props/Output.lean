import Verif.Lemmas.OutputFile
import Verif.Props.Run

/-!
# Properties of the output (C79 - C82)
-/

set_option linter.unusedSectionVars false

namespace Verif.Props
open Verif.Part Verif.Asrt Verif.Text Verif.Spec Verif.Psi Verif.Mch Verif.Run

variable {K : Type} [Field K] [LinearOrder K] [IsStrictOrderedRing K] [FloorRing K]

/-! ## C79: files are read back -/

/-- C79: the image saved for a profile is read back from its file in the same order, to eight significant digits. -/
theorem C79_image (image : List K) (r : ℤ) (d : Dir) : Holds8 (savePhaseSpace image r d) (fileName "image" r) image := by
  obtain ⟨ys, h1, h2⟩ := loadtxt_column 2 image
  exact ⟨_, ys, write_same _ _ _, h1, h2⟩

/-- C79: so is the saved profile. -/
theorem C79_profile (prof : List K) (r : ℤ) (d : Dir) : Holds8 (saveProfile prof r d) (fileName "profile" r) prof := by
  obtain ⟨ys, h1, h2⟩ := loadtxt_column 1 prof
  exact ⟨_, ys, write_same _ _ _, h1, h2⟩

/-- C79: and the voltages due to self fields, one profile after the other. -/
theorem C79_vself (v : Arr2 K) (d : Dir) : Holds8 (saveSelfVolt v d) "vself.data".toList v.flatten := by
  obtain ⟨ys, h1, h2⟩ := loadtxt_column 1 v.flatten
  exact ⟨_, ys, write_same _ _ _, h1, h2⟩

theorem numbered (diff : List K) (d : Dir) (name : Txt) (blanks : ℕ → ℕ) :
    HoldsNumbered (d.write name ((diff.zipIdx 0).flatMap fun e =>
      List.replicate (blanks e.2) ' ' ++ showNat e.2 ++ "  ".toList ++ sci 7 e.1 ++ ['\n'])) name diff := by
  obtain ⟨ys, h1, h2⟩ := loadtxt_numbered blanks diff 0
  refine ⟨_, ys, write_same _ _ _, ?_, h2⟩
  rw [h1, List.mapIdx_eq_zipIdx_map]

/-- C79: the discrepancies are read back with their numbers, from zero, whichever of the two writers is used. -/
theorem C79_difference (diff : List K) (r : ℤ) (d : Dir) :
    HoldsNumbered (saveDifference diff r d) (fileName "d" r) diff ∧
    HoldsNumbered (saveDifferenceFtn diff r d) (fileName "d" r) diff := by
  constructor
  · have h : differenceTscp diff = (diff.zipIdx 0).flatMap fun e =>
        List.replicate (if e.2 < 10 then 11 else 10) ' ' ++ showNat e.2 ++ "  ".toList ++ sci 7 e.1 ++ ['\n'] := by
      unfold differenceTscp
      congr 1
      funext e
      split <;> rfl
    unfold saveDifference
    rw [h]
    exact numbered diff d _ fun k => if k < 10 then 11 else 10
  · have h : differenceFtn diff = (diff.zipIdx 0).flatMap fun e =>
        List.replicate (9 + (3 - (showNat e.2).length)) ' ' ++ showNat e.2 ++ "  ".toList ++ sci 7 e.1 ++ ['\n'] := by
      unfold differenceFtn
      congr 1
      funext e
      rw [blanks_show3]
    unfold saveDifferenceFtn
    rw [h]
    exact numbered diff d _ fun k => 9 + (3 - (showNat k).length)

/-- C79: line `i n + j` of an image file is the cell in column `i` (time) and row `j` (energy). -/
theorem C79_image_cell (n : ℕ) (f : ℕ → ℕ → K) (r : ℤ) (d : Dir) :
    ∃ (text : Txt) (rows : List (List K)), savePhaseSpace (flat n n f) r d (fileName "image" r) = some text ∧
      loadtxt text = some rows ∧ rows.length = n * n ∧
      ∀ i j, i < n → j < n → ∃ y, rows[i * n + j]? = some [y] ∧ Digits 7 (f i j) y := by
  obtain ⟨text, ys, h1, h2, h3⟩ := C79_image (flat n n f) r d
  have hlen := h3.length_eq
  have hfl : (flat n n f).length = n * n := by simp [flat]
  refine ⟨text, _, h1, h2, by rw [List.length_map, ← hlen, hfl], ?_⟩
  intro i j hi hj
  have hlt : i * n + j < n * n := by
    calc i * n + j < i * n + n := by omega
      _ = (i + 1) * n := by ring
      _ ≤ n * n := Nat.mul_le_mul_right _ hi
  have hv : (flat n n f)[i * n + j]'(by rw [hfl]; exact hlt) = f i j := by
    have hn : 0 < n := by omega
    simp only [flat, getElem_tab]
    rw [Nat.mul_comm i n, Nat.mul_add_div hn, Nat.div_eq_of_lt hj, Nat.mul_add_mod, Nat.mod_eq_of_lt hj, Nat.add_zero]
  refine ⟨ys[i * n + j]'(by rw [← hlen, hfl]; exact hlt), ?_, ?_⟩
  · rw [List.getElem?_map, List.getElem?_eq_getElem]
    rfl
  · rw [← hv]
    exact (List.forall₂_iff_get.1 h3).2 _ (by rw [hfl]; exact hlt) (by rw [← hlen, hfl]; exact hlt)

/-- C79: zeros, positive and negative numbers stay so. -/
theorem C79_sign (x y : K) (h : Digits 7 x y) : (y = 0 ↔ x = 0) ∧ (0 < y ↔ 0 < x) ∧ (y < 0 ↔ x < 0) := by
  unfold Digits at h
  have hk : |x| / (2 * 10 ^ 7) ≤ |x| / 2 := by
    apply div_le_div_of_nonneg_left (abs_nonneg x) two_pos
    norm_num
  have h := abs_le.1 (h.trans hk)
  rcases lt_trichotomy x 0 with hx | hx | hx
  · rw [abs_of_neg hx] at h
    refine ⟨⟨fun e => ?_, fun e => ?_⟩, ⟨fun e => ?_, fun e => ?_⟩, ⟨fun _ => hx, fun _ => ?_⟩⟩ <;> linarith [h.1, h.2]
  · subst hx
    have : y = 0 := by rw [abs_zero] at h; linarith [h.1, h.2]
    subst this
    simp
  · rw [abs_of_pos hx] at h
    refine ⟨⟨fun e => ?_, fun e => ?_⟩, ⟨fun _ => hx, fun _ => ?_⟩, ⟨fun e => ?_, fun e => ?_⟩⟩ <;> linarith [h.1, h.2]

/-- C79: the sum of an image without negative cells is read back with the same relative accuracy: an image of sum one has a sum
between `1 - 5e-8` and `1 + 5e-8`. -/
theorem C79_sum {l ys : List K} (h : List.Forall₂ (Digits 7) l ys) (h0 : ∀ x ∈ l, 0 ≤ x) :
    |ys.sum - l.sum| ≤ l.sum / (2 * 10 ^ 7) := by
  induction h with
  | nil => simp
  | @cons x y l ys hxy _ ih =>
    have hx := h0 x List.mem_cons_self
    have := ih fun z hz => h0 z (List.mem_cons_of_mem _ hz)
    unfold Digits at hxy
    rw [abs_of_nonneg hx] at hxy
    rw [List.sum_cons, List.sum_cons, add_div, show y + ys.sum - (x + l.sum) = (y - x) + (ys.sum - l.sum) by ring]
    exact (abs_add_le _ _).trans (add_le_add hxy this)

/-- what is written for a third, and read back -/
example : column 2 [(1 : ℚ) / 3, -20] = "  3.3333333E-01\n  -2.0000000E+01\n".toList := by decide +kernel
example : loadtxt (K := ℚ) "  3.3333333E-01\n  -2.0000000E+01\n".toList = some [[33333333 / 100000000], [-20]] := by decide +kernel
/-- rounding up to the next power of ten -/
example : sci 7 (999999999 / 100000000 : ℚ) = "1.0000000E+01".toList := by decide +kernel
/-- a tie goes to the even digit -/
example : fixed 3 (1 / 16 : ℚ) = "0.062".toList := by decide +kernel

/-! ## C80: every film in its own files -/

/-- the films of a run have different numbers, and there is at least one -/
theorem films_numbers {m : Run.Mach K} {o : TomoOut K} {x y : Arr2 Int} {fs} (h : films m o x y = .ok fs) :
    fs ≠ [] ∧ (fs.map Prod.fst).Nodup := by
  unfold films at h
  simp only [bind_ok_iff] at h
  obtain ⟨zs, hz, rs, hr, h⟩ := h
  split at h
  · cases h
  · rename_i hne
    cases h
    have hmap : fs.map Prod.fst = zs := by
      apply List.ext_getElem?
      intro i
      rw [List.getElem?_map]
      rcases hzi : zs[i]? with _ | z'
      · rw [List.getElem?_eq_none (by rw [mapM_length hr]; exact List.getElem?_eq_none_iff.mp hzi)]; rfl
      · obtain ⟨v, hv1, hv2⟩ := mapM_getElem hr hzi
        rw [hv2]
        unfold oneFilm at hv1
        simp only [bind_ok_iff] at hv1
        obtain ⟨_, _, _, _, hv⟩ := hv1
        cases hv
        rfl
    refine ⟨fun e => hne ?_, ?_⟩
    · rw [← hmap, e]; rfl
    · rw [hmap]
      unfold pyRange at hz
      split at hz
      · cases hz
      · rename_i hs
        cases hz
        unfold tab
        refine List.Nodup.map_on ?_ List.nodup_range
        intro a _ b _ e
        have : m.filmstep * ((a : ℤ) - b) = 0 := by linarith
        rcases mul_eq_zero.1 this with h | h
        · exact absurd h hs
        · omega

/-- C80: the files of a tomoscope run.  Every film has its image and its profile under its own number; the discrepancies are
under the number of the last film; no other file is touched. -/
theorem C80_run {L : MathLib K} {m : Run.Mach K} {past : K} {self : M (Tracked K)} {wf : Arr2 K} {recArg : Option ℤ}
    {out : Run.Out K} (h : runMachine L m past self wf recArg true = .ok out) (d : Dir) :
    ∃ d' last, saveFilms out.films out.diff d = .ok d' ∧
      (∀ z img prof, (z, img, prof) ∈ out.films → Holds8 d' (fileName "image" z) img ∧ Holds8 d' (fileName "profile" z) prof) ∧
      (out.films.map Prod.fst).getLast? = some last ∧ HoldsNumbered d' (fileName "d" last) out.diff ∧
      ∀ n, n ≠ fileName "d" last → (∀ z ∈ out.films.map Prod.fst, n ≠ fileName "image" z ∧ n ≠ fileName "profile" z) →
        d' n = d n := by
  unfold runMachine at h
  simp only [bind_ok_iff, if_true] at h
  obtain ⟨t, _, ⟨dE', x', y'⟩, _, o, _, fs, hf, ⟨tr, er, ps⟩, _, dn, _, he⟩ := h
  cases he
  obtain ⟨hne, hnd⟩ := films_numbers hf
  obtain ⟨w1, w2⟩ := films_written fs hnd d
  obtain ⟨g, hg⟩ : ∃ g, fs.getLast? = some g := ⟨_, List.getLast?_eq_getLast_of_ne_nil hne⟩
  have hid : ∀ a b, fileName "image" a ≠ fileName "d" b := fun a b => fileName_ne a b (by decide) (by decide) (by decide)
  have hpd : ∀ a b, fileName "profile" a ≠ fileName "d" b := fun a b => fileName_ne a b (by decide) (by decide) (by decide)
  have hs : ∀ diff, saveFilms fs diff d = .ok (saveDifference diff g.1
      (fs.foldl (fun d f => saveProfile f.2.2 f.1 (savePhaseSpace f.2.1 f.1 d)) d)) := by
    intro diff
    unfold saveFilms
    dsimp only
    rw [hg]
    rfl
  refine ⟨_, g.1, hs _, ?_, ?_, (C79_difference _ _ _).1, ?_⟩
  · intro z img prof hmem
    obtain ⟨a1, a2⟩ := w1 _ hmem
    obtain ⟨ys, b1, b2⟩ := loadtxt_column 2 img
    obtain ⟨zs, c1, c2⟩ := loadtxt_column 1 prof
    refine ⟨⟨_, ys, ?_, b1, b2⟩, ⟨_, zs, ?_, c1, c2⟩⟩
    · unfold saveDifference
      rw [write_other _ _ _ _ (hid _ _)]
      exact a1
    · unfold saveDifference
      rw [write_other _ _ _ _ (hpd _ _)]
      exact a2
  · rw [List.getLast?_map, hg]
    rfl
  · intro n hn hz
    unfold saveDifference
    rw [write_other _ _ _ _ hn]
    exact w2 n fun f hf => hz f.1 (List.mem_map_of_mem hf)

/-- the run of C68, two films -/
example : (match runMachine libQ runMach 0 (.error .oob) (arr 3 4 runData) none true with
    | .ok o => match saveFilms o.films o.diff (fun _ => none) with
      | .ok d => ["image001", "image002", "image003", "profile001", "profile002", "d001", "d002"].map fun n =>
          (d (n.toList ++ ".data".toList)).isSome
      | .error _ => []
    | .error _ => []) = [true, true, false, true, true, false, true] := by decide +kernel

/-- C80: a name tells the kind of the file and the number of the profile. -/
theorem C80_names :
    (∀ (stem : String) (a b : ℤ), fileName stem a = fileName stem b → a = b) ∧
    (∀ a b, fileName "image" a ≠ fileName "profile" b) ∧ (∀ a b, fileName "image" a ≠ fileName "d" b) ∧
    (∀ a b, fileName "profile" a ≠ fileName "d" b) ∧
    (∀ a, fileName "image" a ≠ "vself.data".toList ∧ fileName "profile" a ≠ "vself.data".toList ∧
      fileName "d" a ≠ "vself.data".toList) := by
  have hv : ∀ (s : String) (a : ℤ) (c : Char) (t : Txt), s.toList = c :: t → c ≠ 'v' → fileName s a ≠ "vself.data".toList := by
    intro s a c t hs hc e
    have := congrArg List.head? e
    rw [fileName_head s a c t hs] at this
    exact hc (Option.some.inj this)
  exact ⟨fun _ _ _ h => fileName_inj h, fun a b => fileName_ne a b (by decide) (by decide) (by decide),
    fun a b => fileName_ne a b (by decide) (by decide) (by decide), fun a b => fileName_ne a b (by decide) (by decide) (by decide),
    fun a => ⟨hv "image" a 'i' _ rfl (by decide), hv "profile" a 'p' _ rfl (by decide), hv "d" a 'd' _ rfl (by decide)⟩⟩

/-- C80: the number in the name counts the profiles from one. -/
theorem C80_number (stem : String) (a : ℤ) :
    readInt (((fileName stem a).drop stem.toList.length).dropLast.dropLast.dropLast.dropLast.dropLast) = some (a + 1) := by
  unfold fileName
  rw [List.append_assoc, List.drop_left]
  have h : ∀ s : Txt, (s ++ ".data".toList).dropLast.dropLast.dropLast.dropLast.dropLast = s := by
    intro s
    have e : s ++ ".data".toList = ((((s ++ ['.']) ++ ['d']) ++ ['a']) ++ ['t']) ++ ['a'] := by
      simp only [List.append_assoc]; rfl
    rw [e]
    simp only [List.dropLast_concat]
  rw [h, readInt_show03]

example : fileName "image" 9 = "image010.data".toList := by decide +kernel
example : fileName "d" 1233 = "d1234.data".toList := by decide +kernel

/-- C80: `save_profile` of the Fortran compatible output writes one of the profiles under its number. -/
theorem C80_profile_partial (profiles : Arr2 K) (r : ℕ) (hr : r < profiles.rows.length) (d : Dir) :
    ∃ d', saveProfileFtn profiles r d = .ok d' ∧ Holds8 d' (fileName "profile" r) profiles.rows[r] := by
  refine ⟨_, ?_, C79_profile profiles.rows[r] r d⟩
  unfold saveProfileFtn
  have : npGet profiles.rows (r : ℤ) = .ok profiles.rows[r] := by
    unfold npGet
    have h0 : ¬ ((r : ℤ) < 0) := by omega
    simp [h0, hr]
  rw [this]
  rfl

/-- C80 fails: the last profile, asked for by the index `-1`, is written as profile number zero. -/
theorem C80_violated_negative_index : ∃ (profiles : Arr2 ℚ) (d' : Dir), profiles.rows.length = 2 ∧
    saveProfileFtn profiles (-1) (fun _ => none) = .ok d' ∧ d' "profile000.data".toList = some (column 1 [(3 : ℚ), 4]) ∧
    d' "profile002.data".toList = none :=
  ⟨⟨2, [[1, 2], [3, 4]]⟩, Dir.write (fun _ => none) (fileName "profile" (-1)) (column 1 [(3 : ℚ), 4]), rfl, rfl, by decide +kernel,
    by decide +kernel⟩

/-- C80: up to a hundred entries (99 iterations) the two writers of the discrepancies agree to the letter. -/
theorem C80_difference_agree_partial (diff : List K) (h : diff.length ≤ 100) : differenceTscp diff = differenceFtn diff := by
  have hl : ∀ k < 100, (if k < 10 then 11 else 10) = 9 + (3 - (showNat k).length) := by decide +kernel
  unfold differenceTscp differenceFtn
  rw [List.flatMap_def, List.flatMap_def]
  congr 1
  apply List.map_congr_left
  intro e he
  have hlt : e.2 < 100 := by
    have := List.snd_lt_of_mem_zipIdx he
    omega
  have := hl e.2 hlt
  rw [blanks_show3, ← this]
  split <;> rfl

/-- C80 fails: from the entry number 100 on the columns are shifted by one in one of them. -/
theorem C80_violated_difference : differenceTscp (List.replicate 101 (0 : ℚ)) ≠ differenceFtn (List.replicate 101 (0 : ℚ)) := by
  decide +kernel

/-! ## C81: plot information -/

/-- C81: every number of the plot information is read back from the line with its label. -/
theorem C81_values (m : InfoMach K) (dE charge phase : K) (imin imax : ℤ) (h : npGet m.phi0 (m.filmstart * m.dturns) = .ok phase) :
    ∃ text, writePlotinfo m ⟨some dE, some imin, some imax⟩ charge = .ok text ∧
      (field " profilecount = ".toList text).bind readInt = some (m.nprofiles : ℤ) ∧
      (field " profilelength = ".toList text).bind readInt = some (m.nbins : ℤ) ∧
      (∃ y, (field " dtbin = ".toList text).bind readNum = some y ∧ Digits 4 m.dtbin y) ∧
      (∃ y, (field " dEbin = ".toList text).bind readNum = some y ∧ Digits 4 dE y) ∧
      (∃ y, (field " eperimage = ".toList text).bind readNum = some y ∧ Digits 3 charge y) ∧
      (∃ y, (field " xat0 =  ".toList text).bind readNum = some y ∧ Places 3 m.synchPartX y) ∧
      (∃ y, (field " yat0 =  ".toList text).bind readNum = some y ∧ Places 3 m.synchPartY y) ∧
      (∃ y, (field (" phi0( ".toList ++ showInt (m.filmstart + 1) ++ ") = ".toList) text).bind readNum = some y ∧
        Places 4 phase y) ∧
      ∃ ws, (field (" imin( ".toList ++ showInt (m.filmstart + 1) ++ ") = ".toList) text).map (parts ' ') = some ws ∧
        ws.head?.bind readInt = some imin ∧ ws.getLast?.bind readInt = some imax := by
  refine ⟨List.intercalate ['\n'] (infoLines m dE charge phase imin imax), ?_, ?_⟩
  · unfold writePlotinfo
    show (npGet m.phi0 (m.filmstart * m.dturns) >>= fun phase => _) = _
    rw [h]
    rfl
  simp only [field_info]
  have hn : ∀ n : ℕ, readInt (showNat n) = some (n : ℤ) := fun n => by
    rw [readInt_digits (showNat_ne n) (showNat_digit n), natOf_showNat]
  have pre : ∀ (a b : Txt), a.isPrefixOf (a ++ b) = true := fun a b => List.isPrefixOf_iff_prefix.2 (List.prefix_append a b)
  refine ⟨hn _, hn _, readNum_sci 4 (by norm_num) _, readNum_sci 4 (by norm_num) _, readNum_sci 3 (by norm_num) _,
    readNum_fixed 3 (by norm_num) _, readNum_fixed 3 (by norm_num) _, ?_, ?_⟩
  · obtain ⟨y, h1, h2⟩ := readNum_fixed 4 (by norm_num) phase
    refine ⟨y, ?_, h2⟩
    have : ((infoLines m dE charge phase imin imax).find? fun l =>
        (" phi0( ".toList ++ showInt (m.filmstart + 1) ++ ") = ".toList).isPrefixOf l)
        = some (" phi0( ".toList ++ showInt (m.filmstart + 1) ++ ") = ".toList ++ fixed 4 phase) := by
      show (List.find? _ [_, _, _]) = _
      rw [List.find?_cons, pre]
    rw [this]
    simp only [Option.map_some, List.drop_left, Option.bind_some, h1]
  · have : ((infoLines m dE charge phase imin imax).find? fun l =>
        (" imin( ".toList ++ showInt (m.filmstart + 1) ++ ") = ".toList).isPrefixOf l)
        = some (" imin( ".toList ++ showInt (m.filmstart + 1) ++ ") = ".toList ++ (List.replicate 2 ' ' ++ (showInt imin ++ ' ' ::
          ("and".toList ++ ' ' :: ("imax(".toList ++ ' ' :: (showInt (m.filmstart + 1) ++ [')'] ++ ' ' :: ("=".toList ++
          ' ' :: (List.replicate 1 ' ' ++ showInt imax)))))))) := by
      have e : " imin( ".toList ++ showInt (m.filmstart + 1) ++ ") =   ".toList ++ showInt imin ++ " and imax( ".toList
          ++ showInt (m.filmstart + 1) ++ ") =  ".toList ++ showInt imax
          = " imin( ".toList ++ showInt (m.filmstart + 1) ++ ") = ".toList ++ (List.replicate 2 ' ' ++ (showInt imin ++ ' ' ::
          ("and".toList ++ ' ' :: ("imax(".toList ++ ' ' :: (showInt (m.filmstart + 1) ++ [')'] ++ ' ' :: ("=".toList ++
          ' ' :: (List.replicate 1 ' ' ++ showInt imax))))))) := by
        simp only [List.append_assoc]
        rfl
      show (List.find? _ [_]) = _
      rw [List.find?_cons, e, pre]
    rw [this]
    refine ⟨_, rfl, ?_⟩
    dsimp only
    rw [List.drop_left, parts_blanks, parts_word_cons _ _ _ (vis_showInt _).no_blank (showInt_ne _),
      parts_word_cons _ _ _ (by decide) (by decide), parts_word_cons _ _ _ (by decide) (by decide),
      parts_word_cons _ _ _ ?_ (by simp), parts_word_cons _ _ _ (by decide) (by decide), parts_blanks,
      parts_word _ _ (vis_showInt _).no_blank (showInt_ne _)]
    · exact ⟨readInt_showInt _, readInt_showInt _⟩
    · exact (Vis.append (vis_showInt _) (by decide : ∀ c ∈ [')'], c ≠ ' ' ∧ c ≠ '\n')).no_blank

/-- C81: the lines of the foot tangent fit hold its results, and zeros when there was no fit. -/
theorem C81_fit (m : InfoMach K) (p : InfoPart K) (charge : K) {text : Txt} (h : writePlotinfo m p charge = .ok text) :
    ∃ l u x, (field " tangentfootl =    ".toList text).bind readNum = some l ∧
      (field " tangentfootu =    ".toList text).bind readNum = some u ∧
      (field " fit xat0 =   ".toList text).bind readNum = some x ∧
      (∀ fx fl fu, m.fittedSynchPartX = some fx → m.bunchlimitLow = some fl → m.bunchlimitUp = some fu →
        Places 3 fl l ∧ Places 3 fu u ∧ Places 3 fx x) ∧
      (m.fittedSynchPartX = none → l = 0 ∧ u = 0 ∧ x = 0) := by
  unfold writePlotinfo at h
  simp only [bind_ok_iff] at h
  obtain ⟨dE, _, imin, _, imax, _, phase, _, h⟩ := h
  cases h
  simp only [field_info]
  obtain ⟨l, l1, l2⟩ := readNum_fixed 3 (by norm_num) (fitInfo m).1
  obtain ⟨u, u1, u2⟩ := readNum_fixed 3 (by norm_num) (fitInfo m).2.1
  obtain ⟨x, x1, x2⟩ := readNum_fixed 3 (by norm_num) (fitInfo m).2.2
  refine ⟨l, u, x, l1, u1, x1, ?_, ?_⟩
  · intro fx fl fu h1 h2 h3
    unfold fitInfo at l2 u2 x2
    rw [h1, h2, h3] at l2 u2 x2
    exact ⟨l2, u2, x2⟩
  · intro h1
    have hz : fitInfo m = (0, 0, 0) := by unfold fitInfo; rw [h1]
    have h0 : readNum (K := K) (fixed 3 (0 : K)) = some 0 := by
      have e : fixed 3 (0 : K) = "0.000".toList := by
        have : roundEven (|(0 : K)| * 10 ^ 3) = 0 := by
          have := roundEven_int (K := K) 0
          simpa using this
        unfold fixed
        rw [this]
        simp
        decide
      rw [e]
      show some (((natOf "0000".toList : ℕ) : K) * 10 ^ ((0 : ℤ) - 3)) = some 0
      have : natOf "0000".toList = 0 := by decide
      rw [this]
      simp
    rw [hz] at l1 u1 x1
    rw [h0] at l1 u1 x1
    exact ⟨(Option.some.inj l1).symm, (Option.some.inj u1).symm, (Option.some.inj x1).symm⟩

/-- C81: without energy binning or limits the text is refused. -/
theorem C81_refused (m : InfoMach K) (p : InfoPart K) (charge : K) :
    (p.dEbin = none → writePlotinfo m p charge = .error (.exc .energyBinningError)) ∧
    (p.dEbin ≠ none → p.imin = none ∨ p.imax = none → writePlotinfo m p charge = .error (.exc .phaseLimitsError)) := by
  rcases p with ⟨_ | dE, _ | a, _ | b⟩ <;> simp [writePlotinfo, Asrt.notNone]

/-- C81: the phase is the synchronous phase at the turn of the profile the films start with. -/
theorem C81_phase (m : InfoMach K) (p : InfoPart K) (charge : K) {T f : ℕ} {ph : ℕ → K} (hp : m.phi0 = tab T ph)
    (hf : m.filmstart = f) {d : ℕ} (hd : m.dturns = d) (hT : f * d < T) {text : Txt} (h : writePlotinfo m p charge = .ok text) :
    ∃ y, (field (" phi0( ".toList ++ showNat (f + 1) ++ ") = ".toList) text).bind readNum = some y ∧ Places 4 (ph (f * d)) y := by
  have hg : npGet m.phi0 (m.filmstart * m.dturns) = .ok (ph (f * d)) := by
    rw [hp, hf, hd, show (f : ℤ) * d = ((f * d : ℕ) : ℤ) by push_cast; rfl, npGet_tab _ hT]
  unfold writePlotinfo at h
  simp only [bind_ok_iff] at h
  obtain ⟨dE, _, imin, _, imax, _, phase, hph, h⟩ := h
  obtain ⟨text', h1, _, _, _, _, _, _, _, h2, _⟩ := C81_values m dE charge phase imin imax hph
  have : text' = text := by
    unfold writePlotinfo at h1
    simp only [bind_ok_iff] at h1
    obtain ⟨_, a1, _, a2, _, a3, _, a4, h1⟩ := h1
    cases a1; cases a2; cases a3
    rw [hph] at a4
    cases a4
    rw [h] at h1
    cases h1
    rfl
  subst this
  rw [hph] at hg
  cases hg
  have hs : showInt (m.filmstart + 1) = showNat (f + 1) := by
    rw [hf]
    unfold showInt
    rw [if_neg (by omega)]
    congr 1
  rw [hs] at h2
  exact h2

/-- a machine for the examples -/
def infoEx : InfoMach ℚ :=
  { filmstart := 1, dturns := 2, nprofiles := 3, nbins := 4, dtbin := 1 / 200000000, synchPartX := 5 / 2, synchPartY := 2
    phi0 := [0, 1, 2, 3, 4], fittedSynchPartX := some (9 / 4), bunchlimitLow := some (1 / 2), bunchlimitUp := some (7 / 2) }

example : (match writePlotinfo infoEx ⟨some 1000, some 0, some 4⟩ 30000000000 with
    | .ok t => [" dtbin = ", " dEbin = ", " eperimage = ", " phi0( 2) = ", " imin( 2) =", " fit xat0 ="].map fun l =>
        String.ofList ((field l.toList t).getD [])
    | .error _ => []) = ["5.0000E-09", "1.0000E+03", "3.000E+10", "2.0000", "   0 and imax( 2) =  4", "   2.250"] := by
  decide +kernel

/-- C81 fails for a run that reconstructs another profile than the first film: the plot information still names the first film
and its phase.  Here profile 2 (index 1) is reconstructed and profile 1 is reported. -/
theorem C81_violated_other_profile :
    (match runOut libQ { runMach with phi0 := [0, 1, 0] } none 7 (some 1) with
      | .ok (_ :: info :: msg :: _) => some (field " phi0( 1) = ".toList info, slices msg)
      | _ => none) = some (some "0.0000".toList, some (2, 3)) := by decide +kernel

/-! ## C82: what a run prints -/

/-- C82, `_partial`: tracking prints one message for every profile but the reconstructed one, the later profiles first, then the
earlier ones, counted from one.  Holds for the C++ and the python loop without self fields; for self fields and on the GPU see
`C82_violated_self`, `C82_violated_gpu`. -/
theorem C82_tracking_partial (d P r : ℕ) (hd : 0 < d) (hr : r < P) :
    (trackOut d P r).map slices = (trackMessages P r).map fun m => some ((m.1 : ℤ), (m.2 : ℤ)) := by
  rw [trackOut_eq d P r hd hr]
  unfold trackMessages
  simp only [List.map_append, List.map_map]
  congr 1
  · apply List.map_congr_left
    intro k _
    simp only [Function.comp, slices_status]
    push_cast
    ring_nf
  · apply List.map_congr_left
    intro k hk
    have := List.mem_range.1 hk
    simp only [Function.comp, slices_status]
    congr 2
    omega

example : (trackOut 5 4 1).map slices = [some (2, 3), some (2, 4), some (2, 1)] := by decide +kernel

/-- C82: every profile but the reconstructed one is reported exactly once. -/
theorem C82_once_partial (d P r : ℕ) (hd : 0 < d) (hr : r < P) (q : ℕ) :
    ((trackOut d P r).map slices).count (some ((r : ℤ) + 1, (q : ℤ) + 1)) = if q < P ∧ q ≠ r then 1 else 0 := by
  rw [C82_tracking_partial d P r hd hr]
  have e : some ((r : ℤ) + 1, (q : ℤ) + 1) = (fun m : ℕ × ℕ => some ((m.1 : ℤ), (m.2 : ℤ))) (r + 1, q + 1) := by simp
  have inj : Function.Injective (fun m : ℕ × ℕ => some ((m.1 : ℤ), (m.2 : ℤ))) := by
    rintro ⟨a, b⟩ ⟨a', b'⟩ h
    simpa using h
  rw [e, List.count_map_of_injective _ _ inj]
  have hnd : (trackMessages P r).Nodup := by
    unfold trackMessages
    rw [List.nodup_append]
    refine ⟨List.Nodup.map_on ?_ List.nodup_range, List.Nodup.map_on ?_ List.nodup_range, ?_⟩
    · intro a _ b _ h
      have := congrArg Prod.snd h
      dsimp only at this
      omega
    · intro a ha b hb h
      have := congrArg Prod.snd h
      have := List.mem_range.1 ha
      have := List.mem_range.1 hb
      dsimp only at *
      omega
    · rintro _ ha _ hb rfl
      obtain ⟨k, _, hk⟩ := List.mem_map.1 ha
      obtain ⟨l, _, hl⟩ := List.mem_map.1 hb
      have := congrArg Prod.snd (hk.trans hl.symm)
      dsimp only at this
      omega
  have hmem : (r + 1, q + 1) ∈ trackMessages P r ↔ q < P ∧ q ≠ r := by
    unfold trackMessages
    simp only [List.mem_append, List.mem_map, List.mem_range, Prod.mk.injEq, true_and]
    constructor
    · rintro (⟨k, h1, h2⟩ | ⟨k, h1, h2⟩) <;> omega
    · rintro ⟨h1, h2⟩
      rcases lt_or_gt_of_ne h2 with h | h
      · exact Or.inr ⟨r - 1 - q, by omega, by omega⟩
      · exact Or.inl ⟨q - r - 1, by omega, by omega⟩
  split
  · rename_i h
    exact List.count_eq_one_of_mem hnd (hmem.2 h)
  · rename_i h
    exact List.count_eq_zero_of_not_mem fun m => h (hmem.1 m)

/-- C82 fails with self fields: the first message leads from the profile to itself, on the way down every message is one too low,
and the last one names a profile number zero. -/
theorem C82_violated_self : (trackOutSelf 5 4 2).map slices = [some (3, 3), some (3, 4), some (3, 1), some (3, 0)] ∧
    trackMessages 4 2 = [(3, 4), (3, 2), (3, 1)] := by decide +kernel

/-- C82 fails on the GPU: nothing is printed although it was asked for. -/
theorem C82_violated_gpu (d P r : ℕ) (h : 1 < P) (hr : r < P) :
    trackOutGpu d P r = [] ∧ (trackMessages P r).length = P - 1 ∧ P - 1 ≠ 0 := by
  refine ⟨rfl, ?_, by omega⟩
  simp [trackMessages]
  omega

/-- C82: a reconstruction announces itself, prints the numbers of its iterations from one on, and reports its end. -/
theorem C82_iterations (niter : ℕ) :
    (reconOut " Done!" niter).head? = some " Iterating...".toList ∧ (reconOut " Done!" niter).getLast? = some " Done!".toList ∧
    (reconOut " Done!" niter).length = niter + 2 ∧
    ∀ k < niter, ((reconOut " Done!" niter)[k + 1]?).bind (fun s => readInt (s.dropWhile (· = ' '))) = some ((k : ℤ) + 1) := by
  refine ⟨rfl, List.getLast?_concat, by simp [reconOut], ?_⟩
  intro k hk
  have hdrop : ∀ (n : ℕ) (s : Txt), s ≠ [] → (∀ c ∈ s, c.isDigit = true) →
      (List.replicate n ' ' ++ s).dropWhile (· = ' ') = s := by
    intro n s hs hd
    induction n with
    | zero =>
      cases s with
      | nil => exact absurd rfl hs
      | cons c s =>
        have : c ≠ ' ' := by
          rintro rfl
          exact absurd (hd _ List.mem_cons_self) (by decide)
        simp [this]
    | succ n ih => simpa [List.replicate_succ] using ih
  have : (reconOut " Done!" niter)[k + 1]? = some (show3 (k + 1)) := by
    unfold reconOut
    rw [List.append_assoc, List.singleton_append, List.getElem?_cons_succ, List.getElem?_append_left (by simpa using hk)]
    simp [hk]
  rw [this, Option.bind_some]
  unfold show3 padLeft
  rw [hdrop _ _ (showNat_ne _) (showNat_digit _), readInt_digits (showNat_ne _) (showNat_digit _), natOf_showNat]
  push_cast
  rfl

/-- C82 fails on the GPU: the last line has no blank in front, so that the two outputs differ. -/
theorem C82_violated_gpu_done (niter : ℕ) : reconOut "Done!" niter ≠ reconOut " Done!" niter := by
  intro h
  have := congrArg List.getLast? h
  unfold reconOut at this
  rw [List.getLast?_concat, List.getLast?_concat] at this
  exact absurd this (by decide)

/-- C82, `_partial`: the standard output of a run on the CPU without self fields: " Start", the plot information, the messages of
the tracking, those of the reconstruction. -/
theorem C82_run_partial {L : MathLib K} {m : Run.Mach K} {fit : Option (K × K × K)} {charge : K} {recArg : Option ℤ} {P d : ℕ}
    (hP : m.nprofiles = P) (hd : m.dturns = d) {out : List Txt} (h : runOut L m fit charge recArg = .ok out) :
    ∃ (r : ℕ) (info : Txt) (dE : K) (imin imax : ℤ), r < P ∧ (recArg.getD m.filmstart = r ∨ recArg.getD m.filmstart = (r : ℤ) - P) ∧
      writePlotinfo (infoMach m fit) ⟨some dE, some imin, some imax⟩ charge = .ok info ∧
      out.take 2 = [" Start".toList, info] ∧
      ((out.drop 2).take (P - 1)).map slices = (trackMessages P r).map (fun m => some ((m.1 : ℤ), (m.2 : ℤ))) ∧
      out.drop (P + 1) = reconOut " Done!" m.niter := by
  unfold runOut at h
  rw [hP, hd] at h
  rcases hr : Track.trackCheck P d (recArg.getD m.filmstart) 0 with e | r
  · rw [hr] at h
    cases h
  rw [hr] at h
  simp only [bind_ok_iff] at h
  obtain ⟨⟨x, dE, l⟩, _, info, hi, h⟩ := h
  cases h
  obtain ⟨r', rfl, hrP, hd0, hrec⟩ := trackCheck_nat hr
  have hl : (trackOut d P r').length = P - 1 := by
    rw [trackOut_eq d P r' hd0 hrP]
    simp
    omega
  refine ⟨r', info, dE, l.imin, l.imax, hrP, hrec, hi, rfl, ?_, ?_⟩
  · rw [List.append_assoc]
    show ((trackOut d P r' ++ reconOut " Done!" m.niter).take (P - 1)).map slices = _
    rw [List.take_left' hl, C82_tracking_partial d P r' hd0 hrP]
  · rw [List.drop_left' (by simp [hl]; omega)]

end Verif.Props
