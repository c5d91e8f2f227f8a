import Verif.Spec.Output
import Mathlib.Data.Nat.Digits.Lemmas
import Mathlib.Data.List.TakeWhile
import Mathlib.Tactic.Linarith
import Mathlib.Tactic.FieldSimp
import Mathlib.Tactic.Ring
import Mathlib.Tactic.Positivity
import Mathlib.Tactic.LinearCombination

/-!
# Lemmas about formatted numbers and files
-/

namespace Verif.Text
open Verif.Spec

/-! ## Digits -/

theorem digitChar_props : ∀ d, d < 10 → (Nat.digitChar d).isDigit = true ∧ digitVal (Nat.digitChar d) = d := by decide

theorem natOf_append (s t : Txt) : natOf (s ++ t) = natOf s * 10 ^ t.length + natOf t := by
  induction t using List.reverseRecOn with
  | nil => simp [natOf]
  | append_singleton t c ih =>
    rw [← List.append_assoc]
    simp only [natOf, List.foldl_append, List.foldl_cons, List.foldl_nil, List.length_append, List.length_singleton] at ih ⊢
    rw [ih]
    ring

theorem natOf_digits (l : List Nat) (h : ∀ d ∈ l, d < 10) : natOf (l.reverse.map Nat.digitChar) = Nat.ofDigits 10 l := by
  induction l with
  | nil => simp [natOf]
  | cons d l ih =>
    rw [List.reverse_cons, List.map_append, natOf_append, ih fun e he => h e (List.mem_cons_of_mem _ he), Nat.ofDigits_cons]
    simp only [List.map_cons, List.map_nil, List.length_singleton, pow_one, natOf, List.foldl_cons, List.foldl_nil, mul_zero,
      zero_add, (digitChar_props d (h d List.mem_cons_self)).2]
    ring

theorem natOf_showNat (n : Nat) : natOf (showNat n) = n := by
  unfold showNat
  split
  · subst n
    decide
  · rw [natOf_digits _ fun d hd => Nat.digits_lt_base (by norm_num) hd, Nat.ofDigits_digits]

theorem showNat_ne (n : Nat) : showNat n ≠ [] := by
  unfold showNat
  split
  · simp
  · simp only [ne_eq, List.map_eq_nil_iff, List.reverse_eq_nil_iff, Nat.digits_eq_nil_iff_eq_zero]
    assumption

theorem showNat_digit (n : Nat) : ∀ c ∈ showNat n, c.isDigit = true := by
  unfold showNat
  split
  · simp
  · intro c hc
    simp only [List.mem_map, List.mem_reverse] at hc
    obtain ⟨d, hd, rfl⟩ := hc
    exact (digitChar_props d (Nat.digits_lt_base (by norm_num) hd)).1

theorem showNat_length (n p : Nat) (h : n < 10 ^ p) (hp : 0 < p) : (showNat n).length ≤ p := by
  unfold showNat
  split
  · show 1 ≤ p
    exact hp
  · simp only [List.length_map, List.length_reverse]
    exact (Nat.digits_length_le_iff (by norm_num) n).2 h

theorem natOf_zeros (k : Nat) (s : Txt) : natOf (List.replicate k '0' ++ s) = natOf s := by
  rw [natOf_append]
  have : natOf (List.replicate k '0') = 0 := by
    induction k with
    | zero => rfl
    | succ k ih =>
      rw [List.replicate_succ', natOf_append, ih]
      decide
  rw [this]
  simp

theorem natOf_pad (w : Nat) (s : Txt) : natOf (padLeft '0' w s) = natOf s := natOf_zeros _ _

theorem pad_digit (w : Nat) (s : Txt) (h : ∀ c ∈ s, c.isDigit = true) : ∀ c ∈ padLeft '0' w s, c.isDigit = true := by
  intro c hc
  simp only [padLeft, List.mem_append, List.mem_replicate] at hc
  rcases hc with ⟨_, rfl⟩ | hc
  · decide
  · exact h c hc

theorem pad_length (ch : Char) (w : Nat) (s : Txt) (h : s.length ≤ w) : (padLeft ch w s).length = w := by
  simp only [padLeft, List.length_append, List.length_replicate]
  omega

theorem pad_ne (ch : Char) (w : Nat) (s : Txt) (h : s ≠ []) : padLeft ch w s ≠ [] := by
  simp [padLeft, h]

theorem all_digit {s : Txt} (h : ∀ c ∈ s, c.isDigit = true) : s.all Char.isDigit = true := by
  rw [List.all_eq_true]
  exact h

theorem takeWhile_digits (d : Txt) (c : Char) (r : Txt) (h : ∀ x ∈ d, x.isDigit = true) (hc : c.isDigit = false) :
    (d ++ c :: r).takeWhile Char.isDigit = d ∧ (d ++ c :: r).dropWhile Char.isDigit = c :: r := by
  induction d with
  | nil => simp [hc]
  | cons x d ih =>
    have hx := h x List.mem_cons_self
    have := ih fun y hy => h y (List.mem_cons_of_mem _ hy)
    simp [hx, this.1, this.2]

theorem takeWhile_all (d : Txt) (h : ∀ x ∈ d, x.isDigit = true) :
    d.takeWhile Char.isDigit = d ∧ d.dropWhile Char.isDigit = [] := by
  induction d with
  | nil => simp
  | cons x d ih =>
    have hx := h x List.mem_cons_self
    have := ih fun y hy => h y (List.mem_cons_of_mem _ hy)
    simp [hx, this.1, this.2]

/-! ## Reading integers -/

theorem not_minus {s : Txt} (hne : s ≠ []) (h : ∀ c ∈ s, c.isDigit = true) : ∃ c t, s = c :: t ∧ c ≠ '-' := by
  cases s with
  | nil => exact absurd rfl hne
  | cons c t =>
    refine ⟨c, t, rfl, ?_⟩
    rintro rfl
    have := h '-' List.mem_cons_self
    exact absurd this (by decide)

theorem readInt_digits {s : Txt} (hne : s ≠ []) (h : ∀ c ∈ s, c.isDigit = true) : readInt s = some (natOf s : Int) := by
  obtain ⟨c, t, rfl, hc⟩ := not_minus hne h
  unfold readInt
  split
  · rename_i heq
    simp only [List.cons.injEq] at heq
    exact absurd heq.1 hc
  · rw [if_pos ⟨hne, all_digit h⟩]

theorem readInt_minus {s : Txt} (hne : s ≠ []) (h : ∀ c ∈ s, c.isDigit = true) :
    readInt ('-' :: s) = some (-(natOf s : Int)) := by
  unfold readInt
  exact if_pos ⟨hne, all_digit h⟩

theorem readInt_showInt (z : Int) : readInt (showInt z) = some z := by
  unfold showInt
  split
  · rw [readInt_minus (showNat_ne _) (showNat_digit _), natOf_showNat]
    congr 1
    omega
  · rw [readInt_digits (showNat_ne _) (showNat_digit _), natOf_showNat]
    congr 1
    omega

theorem readInt_show03 (z : Int) : readInt (show03 z) = some z := by
  unfold show03
  split
  · rw [readInt_minus (pad_ne _ _ _ (showNat_ne _)) (pad_digit _ _ (showNat_digit _)), natOf_pad, natOf_showNat]
    congr 1
    omega
  · rw [readInt_digits (pad_ne _ _ _ (showNat_ne _)) (pad_digit _ _ (showNat_digit _)), natOf_pad, natOf_showNat]
    congr 1
    omega

theorem show03_inj {a b : Int} (h : show03 a = show03 b) : a = b := by
  have := readInt_show03 a
  rw [h, readInt_show03] at this
  exact (Option.some.inj this).symm

/-- the file names of one kind tell the index -/
theorem fileName_inj {stem : String} {a b : Int} (h : fileName stem a = fileName stem b) : a = b := by
  unfold fileName at h
  have h1 := List.append_cancel_right h
  have h2 := show03_inj (List.append_cancel_left h1)
  omega

theorem fileName_head (stem : String) (a : Int) (c : Char) (t : Txt) (h : stem.toList = c :: t) :
    (fileName stem a).head? = some c := by simp [fileName, h]

/-! ## Rounding -/

section
variable {K : Type} [Field K] [LinearOrder K] [IsStrictOrderedRing K] [FloorRing K]

theorem roundEven_err (x : K) : |(roundEven x : K) - x| ≤ 1 / 2 := by
  have h0 := Int.floor_le x
  have h1 := Int.lt_floor_add_one x
  unfold roundEven
  rw [abs_le]
  dsimp only
  split_ifs <;> push_cast <;> constructor <;> linarith

theorem roundEven_mono {x y : K} (h : x ≤ y) : roundEven x ≤ roundEven y := by
  have hf := Int.floor_le_floor h
  have h0 := Int.floor_le x
  have h1 := Int.lt_floor_add_one x
  have g0 := Int.floor_le y
  have g1 := Int.lt_floor_add_one y
  rcases eq_or_lt_of_le hf with e | e
  · unfold roundEven
    dsimp only
    rw [← e]
    have : ((⌊x⌋ : ℤ) : K) = (⌊y⌋ : ℤ) := by rw [e]
    split_ifs <;> first | omega | linarith
  · have hx : roundEven x ≤ ⌊x⌋ + 1 := by
      unfold roundEven
      dsimp only
      split_ifs <;> omega
    have hy : ⌊y⌋ ≤ roundEven y := by
      unfold roundEven
      dsimp only
      split_ifs <;> omega
    omega

theorem roundEven_int (z : ℤ) : roundEven (z : K) = z := by
  unfold roundEven
  simp

theorem ten_zpow_pos (e : ℤ) : (0 : K) < 10 ^ e := zpow_pos (by norm_num) e

/-- mantissa and exponent: eight digits, error half a unit of the last one -/
theorem sciParts_spec (p : ℕ) (a : K) (ha : 0 < a) :
    10 ^ p ≤ (sciParts p a).1 ∧ (sciParts p a).1 < 10 ^ (p + 1)
      ∧ |((sciParts p a).1 : K) * 10 ^ ((sciParts p a).2 - p) - a| ≤ a / (2 * 10 ^ p) := by
  have hlo : (10 : K) ^ Int.log 10 a ≤ a := by
    have := Int.zpow_log_le_self (b := 10) (r := a) (by norm_num) ha
    exact_mod_cast this
  have hhi : a < (10 : K) ^ (Int.log 10 a + 1) := by
    have := Int.lt_zpow_succ_log_self (b := 10) (by norm_num) a
    exact_mod_cast this
  obtain ⟨e, he⟩ : ∃ e, e = Int.log 10 a := ⟨_, rfl⟩
  rw [← he] at hlo hhi
  have hu : (0 : K) < 10 ^ (e - p) := ten_zpow_pos _
  have hsplit : (10 : K) ^ e = 10 ^ (e - (p : ℤ)) * 10 ^ p := by
    rw [← zpow_natCast (10 : K) p, ← zpow_add₀ (by norm_num)]
    congr 1
    omega
  have hsplit' : (10 : K) ^ (e + 1) = 10 ^ (e - (p : ℤ)) * 10 ^ (p + 1) := by
    rw [← zpow_natCast (10 : K) (p + 1), ← zpow_add₀ (by norm_num)]
    congr 1
    push_cast
    omega
  have hx1 : ((10 ^ p : ℤ) : K) ≤ a / 10 ^ (e - (p : ℤ)) := by
    rw [le_div_iff₀ hu]
    push_cast
    rw [mul_comm, ← hsplit]
    exact hlo
  have hx2 : a / 10 ^ (e - (p : ℤ)) ≤ ((10 ^ (p + 1) : ℤ) : K) := by
    rw [div_le_iff₀ hu]
    push_cast
    rw [mul_comm, ← hsplit']
    exact hhi.le
  have hr1 := roundEven_mono hx1
  have hr2 := roundEven_mono hx2
  rw [roundEven_int] at hr1 hr2
  obtain ⟨r, hr⟩ : ∃ r, r = roundEven (a / (10 : K) ^ (e - (p : ℤ))) := ⟨_, rfl⟩
  have herr := roundEven_err (a / (10 : K) ^ (e - (p : ℤ)))
  rw [← hr] at hr1 hr2 herr
  have hrn : ((r.toNat : ℕ) : ℤ) = r := Int.toNat_of_nonneg (le_trans (by positivity) hr1)
  have hn1 : 10 ^ p ≤ r.toNat := by zify; rw [hrn]; exact hr1
  have hn2 : r.toNat ≤ 10 ^ (p + 1) := by zify; rw [hrn]; exact hr2
  have hrk : ((r.toNat : ℕ) : K) = (r : K) := by rw [← hrn]; push_cast; rfl
  have hfin : |((r.toNat : ℕ) : K) * 10 ^ (e - (p : ℤ)) - a| ≤ a / (2 * 10 ^ p) := by
    have e1 : ((r.toNat : ℕ) : K) * 10 ^ (e - (p : ℤ)) - a = ((r : K) - a / 10 ^ (e - (p : ℤ))) * 10 ^ (e - (p : ℤ)) := by
      rw [hrk]
      field_simp
    rw [e1, abs_mul, abs_of_pos hu]
    calc |(r : K) - a / 10 ^ (e - (p : ℤ))| * 10 ^ (e - (p : ℤ)) ≤ 1 / 2 * 10 ^ (e - (p : ℤ)) :=
          mul_le_mul_of_nonneg_right herr hu.le
      _ = 10 ^ e / (2 * 10 ^ p) := by
          rw [hsplit]
          field_simp
      _ ≤ a / (2 * 10 ^ p) := by
          apply div_le_div_of_nonneg_right hlo
          positivity
  unfold sciParts
  dsimp only
  rw [← he, ← hr]
  split
  · rename_i hm
    refine ⟨le_rfl, Nat.pow_lt_pow_right (by norm_num) (by omega), ?_⟩
    have : (((10 ^ p : ℕ) : K)) * 10 ^ (e + 1 - (p : ℤ)) = ((r.toNat : ℕ) : K) * 10 ^ (e - (p : ℤ)) := by
      rw [hm]
      push_cast
      rw [show e + 1 - (p : ℤ) = (e - p) + 1 by omega, zpow_add_one₀ (by norm_num : (10 : K) ≠ 0)]
      ring
    rw [this]
    exact hfin
  · exact ⟨hn1, by omega, hfin⟩

/-! ## Reading numbers -/

theorem readExp_show (z : ℤ) :
    readExp ('E' :: (if z < 0 then '-' else '+') :: padLeft '0' 2 (showNat z.natAbs)) = some z := by
  have hd := all_digit (pad_digit 2 _ (showNat_digit z.natAbs))
  have hne := pad_ne '0' 2 _ (showNat_ne z.natAbs)
  split
  · show (if padLeft '0' 2 (showNat z.natAbs) ≠ [] ∧ (padLeft '0' 2 (showNat z.natAbs)).all Char.isDigit
      then some (-(natOf (padLeft '0' 2 (showNat z.natAbs)) : Int)) else none) = some z
    rw [if_pos ⟨hne, hd⟩, natOf_pad, natOf_showNat]
    congr 1
    omega
  · show (if padLeft '0' 2 (showNat z.natAbs) ≠ [] ∧ (padLeft '0' 2 (showNat z.natAbs)).all Char.isDigit
      then some (natOf (padLeft '0' 2 (showNat z.natAbs)) : Int) else none) = some z
    rw [if_pos ⟨hne, hd⟩, natOf_pad, natOf_showNat]
    congr 1
    omega

omit [LinearOrder K] [IsStrictOrderedRing K] [FloorRing K] in
/-- digits, a point, digits and an exponent -/
theorem readAbs_dot (ip fp r : Txt) (z : ℤ) (hip : ∀ c ∈ ip, c.isDigit = true) (hne : ip ≠ [])
    (hfp : ∀ c ∈ fp, c.isDigit = true) (hr : r = [] ∨ ∃ c t, r = c :: t ∧ c.isDigit = false) (hz : readExp r = some z) :
    readAbs (ip ++ '.' :: (fp ++ r)) = some ((natOf (ip ++ fp) : K) * 10 ^ (z - fp.length)) := by
  have h1 := takeWhile_digits ip '.' (fp ++ r) hip (by decide)
  have h2 : (fp ++ r).takeWhile Char.isDigit = fp ∧ (fp ++ r).dropWhile Char.isDigit = r := by
    rcases hr with rfl | ⟨c, t, rfl, hc⟩
    · simpa using takeWhile_all fp hfp
    · exact takeWhile_digits fp c t hfp hc
  unfold readAbs
  dsimp only
  rw [h1.1, if_neg hne, h1.2]
  show (readExp ((fp ++ r).dropWhile Char.isDigit)).map _ = _
  rw [h2.1, h2.2, hz]
  rfl

theorem readAbs_showSci (p : ℕ) (hp : 0 < p) (me : ℕ × ℤ) :
    readAbs (showSci p me) = some ((me.1 : K) * 10 ^ (me.2 - p)) := by
  obtain ⟨m, e⟩ := me
  have hlen := showNat_length (m % 10 ^ p) p (Nat.mod_lt _ (by positivity)) hp
  have hpl := pad_length '0' p _ hlen
  have h := readAbs_dot (K := K) (showNat (m / 10 ^ p)) (padLeft '0' p (showNat (m % 10 ^ p)))
    ('E' :: (if e < 0 then '-' else '+') :: padLeft '0' 2 (showNat e.natAbs)) e (showNat_digit _) (showNat_ne _)
    (pad_digit _ _ (showNat_digit _)) (Or.inr ⟨_, _, rfl, by decide⟩) (readExp_show e)
  unfold showSci
  dsimp only
  rw [List.append_assoc, List.cons_append, h, natOf_append, hpl, natOf_pad, natOf_showNat, natOf_showNat]
  congr 3
  exact Nat.div_add_mod' m (10 ^ p)

omit [LinearOrder K] [IsStrictOrderedRing K] [FloorRing K] in
/-- a text beginning with a digit is not negative -/
theorem readNum_digit {s : Txt} (h : ∃ c t, s = c :: t ∧ c ≠ '-') : readNum (K := K) s = readAbs s := by
  obtain ⟨c, t, rfl, hc⟩ := h
  unfold readNum
  split
  · rename_i heq
    simp only [List.cons.injEq] at heq
    exact absurd heq.1 hc
  · rfl

theorem head_append {s t : Txt} (h : ∃ c r, s = c :: r ∧ c ≠ '-') : ∃ c r, s ++ t = c :: r ∧ c ≠ '-' := by
  obtain ⟨c, r, rfl, hc⟩ := h
  exact ⟨c, r ++ t, rfl, hc⟩

/-- `{x:0.pE}` is read back to `p + 1` significant digits -/
theorem readNum_sci (p : ℕ) (hp : 0 < p) (x : K) : ∃ y, readNum (sci p x) = some y ∧ Digits p x y := by
  have hhead : ∀ me : ℕ × ℤ, ∃ c r, showSci p me = c :: r ∧ c ≠ '-' := by
    intro me
    unfold showSci
    rw [List.append_assoc]
    exact head_append (not_minus (showNat_ne _) (showNat_digit _))
  unfold sci
  split
  · rename_i h
    refine ⟨0, ?_, ?_⟩
    · rw [readNum_digit (hhead _), readAbs_showSci p hp]
      simp
    · simp [Digits, h]
  · split
    · rename_i h
      have hs := (sciParts_spec p (-x) (by linarith)).2.2
      refine ⟨-(((sciParts p (-x)).1 : K) * 10 ^ ((sciParts p (-x)).2 - p)), ?_, ?_⟩
      · show (readAbs (showSci p (sciParts p (-x)))).map _ = _
        rw [readAbs_showSci p hp]
        rfl
      · unfold Digits
        rw [abs_of_neg h, ← abs_neg]
        convert hs using 2
        ring
    · rename_i h0 h
      have hx : 0 < x := lt_of_le_of_ne (not_lt.1 h) (Ne.symm h0)
      refine ⟨((sciParts p x).1 : K) * 10 ^ ((sciParts p x).2 - p), ?_, ?_⟩
      · rw [readNum_digit (hhead _), readAbs_showSci p hp]
      · unfold Digits
        rw [abs_of_pos hx]
        exact (sciParts_spec p x hx).2.2

/-- `{x:.pf}` is read back to `p` decimal places -/
theorem readNum_fixed (p : ℕ) (hp : 0 < p) (x : K) : ∃ y, readNum (fixed p x) = some y ∧ Places p x y := by
  obtain ⟨r, hr⟩ : ∃ r, r = roundEven (|x| * (10 : K) ^ p) := ⟨_, rfl⟩
  have herr := roundEven_err (|x| * (10 : K) ^ p)
  have h0 : 0 ≤ roundEven (|x| * (10 : K) ^ p) := by
    have := roundEven_mono (show ((0 : ℤ) : K) ≤ |x| * (10 : K) ^ p by push_cast; positivity)
    rwa [roundEven_int] at this
  rw [← hr] at herr h0
  have hrk : ((r.toNat : ℕ) : K) = (r : K) := by
    have : ((r.toNat : ℕ) : ℤ) = r := Int.toNat_of_nonneg h0
    exact_mod_cast congrArg (fun z : ℤ => (z : K)) this
  have hlen := showNat_length (r.toNat % 10 ^ p) p (Nat.mod_lt _ (by positivity)) hp
  have hpl := pad_length '0' p _ hlen
  have hread : readAbs (showNat (r.toNat / 10 ^ p) ++ '.' :: padLeft '0' p (showNat (r.toNat % 10 ^ p)))
      = some ((r : K) / 10 ^ p) := by
    have h := readAbs_dot (K := K) (showNat (r.toNat / 10 ^ p)) (padLeft '0' p (showNat (r.toNat % 10 ^ p))) [] 0
      (showNat_digit _) (showNat_ne _) (pad_digit _ _ (showNat_digit _)) (Or.inl rfl) rfl
    rw [List.append_nil] at h
    rw [h, natOf_append, hpl, natOf_pad, natOf_showNat, natOf_showNat, Nat.div_add_mod', hrk, zero_sub, zpow_neg, zpow_natCast,
      div_eq_mul_inv]
  have hq : (0 : K) < 10 ^ p := by positivity
  have hclose : |(r : K) / 10 ^ p - abs x| ≤ 1 / (2 * 10 ^ p) := by
    have : (r : K) / 10 ^ p - |x| = ((r : K) - |x| * 10 ^ p) / 10 ^ p := by field_simp
    rw [this, abs_div, abs_of_pos hq, div_le_iff₀ hq]
    calc |(r : K) - |x| * 10 ^ p| ≤ 1 / 2 := herr
      _ = 1 / (2 * 10 ^ p) * 10 ^ p := by field_simp
  unfold fixed
  dsimp only
  rw [← hr]
  split
  · rename_i h
    refine ⟨-((r : K) / 10 ^ p), ?_, ?_⟩
    · show (readAbs _).map _ = _
      rw [hread]
      rfl
    · unfold Places
      rw [abs_of_neg h] at hclose
      rw [← abs_neg]
      convert hclose using 2
      ring
  · rename_i h
    refine ⟨(r : K) / 10 ^ p, ?_, ?_⟩
    · rw [readNum_digit (head_append (not_minus (showNat_ne _) (showNat_digit _))), hread]
    · unfold Places
      rwa [abs_of_nonneg (not_lt.1 h)] at hclose

end

end Verif.Text
