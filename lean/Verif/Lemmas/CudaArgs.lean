import Verif.Spec.CudaArgs
import Mathlib.Tactic.Linarith
import Mathlib.Tactic.Ring
import Mathlib.Tactic.NormNum
import Mathlib.Tactic.FieldSimp
import Mathlib.Algebra.Order.Field.Power

/-!
# Arguments of CUDA kernels: lemmas
-/

set_option linter.unusedSectionVars false

namespace Verif.CArg
open Verif.Par Verif.Omp Verif.Track Verif.Cuda

/-- a 32 bit integer survives the way through 64 bits -/
theorem signed_sent {z : ℤ} (h1 : -2 ^ 31 ≤ z) (h2 : z < 2 ^ 31) : signed (sent (.int z) % 2 ^ 32) = z := by
  have e : sent (.int z) = (z % 2 ^ 64).toNat := rfl
  rw [e]
  unfold signed
  split_ifs <;> omega

theorem single_zero : Ieee.single 0 = some 0 := by decide +kernel

/-- the low half of the pattern of a short number is zero -/
theorem low_zero {b : ℕ} {q : ℚ} (h : Ieee.double b = some q) (hq : Short q) (hn : (2 : ℚ) ^ (-1022 : ℤ) ≤ |q|) : b % 2 ^ 32 = 0 := by
  obtain ⟨n, j, n0, n1, hq⟩ := hq
  have habs : |q| = (n : ℚ) * 2 ^ j := by
    have h0 : (0 : ℚ) ≤ (n : ℚ) * 2 ^ j := by positivity
    rcases hq with rfl | rfl
    · exact abs_of_nonneg h0
    · rw [abs_neg, abs_of_nonneg h0]
  have hs : ∀ {c : Prop} [Decidable c] (x : ℚ), 0 ≤ x → |(if c then (-1 : ℚ) else 1) * x| = x := by
    intro c _ x hx
    split_ifs
    · rw [neg_one_mul, abs_neg, abs_of_nonneg hx]
    · rw [one_mul, abs_of_nonneg hx]
  have hf : b % 2 ^ 52 < 2 ^ 52 := Nat.mod_lt _ (by positivity)
  have hm : b % 2 ^ 52 % 2 ^ 32 = b % 2 ^ 32 := Nat.mod_mod_of_dvd _ (pow_dvd_pow 2 (by norm_num))
  have hlow : ∀ a : ℤ, ((2 ^ 52 + b % 2 ^ 52 : ℕ) : ℚ) * 2 ^ a = n * 2 ^ j → b % 2 ^ 52 % 2 ^ 32 = 0 := by
    intro a ha
    generalize b % 2 ^ 52 = f at ha
    have e1 : ((2 ^ 52 + f : ℕ) : ℚ) = n * 2 ^ (j - a) := by
      rw [zpow_sub₀ (by norm_num : (2 : ℚ) ≠ 0), ← mul_div_assoc, ← ha, mul_div_assoc, div_self (by positivity), mul_one]
    have h32 : 32 ≤ j - a := by
      by_contra hlt
      have h31 : j - a ≤ 31 := by omega
      have h2 : (2 : ℚ) ^ (j - a) ≤ 2 ^ (31 : ℤ) := zpow_le_zpow_right₀ (by norm_num) h31
      have hn' : (n : ℚ) < 2 ^ 21 := by exact_mod_cast n1
      have h3 : ((2 ^ 52 + f : ℕ) : ℚ) < 2 ^ 21 * 2 ^ (31 : ℤ) := by
        rw [e1]
        have hn0 : (0 : ℚ) ≤ n := Nat.cast_nonneg n
        exact lt_of_le_of_lt (mul_le_mul_of_nonneg_left h2 hn0) (mul_lt_mul_of_pos_right hn' (by positivity))
      have h4 : (2 ^ 52 : ℚ) ≤ ((2 ^ 52 + f : ℕ) : ℚ) := by exact_mod_cast Nat.le_add_right _ _
      norm_num at h3 h4
      linarith
    obtain ⟨k, hk⟩ : ∃ k : ℕ, j - a = 32 + (k : ℤ) := ⟨(j - a - 32).toNat, by omega⟩
    have e2 : 2 ^ 52 + f = n * 2 ^ k * 2 ^ 32 := by
      have : ((2 ^ 52 + f : ℕ) : ℚ) = ((n * 2 ^ k * 2 ^ 32 : ℕ) : ℚ) := by
        rw [e1, hk, zpow_add₀ (by norm_num : (2 : ℚ) ≠ 0)]
        push_cast
        rw [zpow_natCast]
        ring
      exact_mod_cast this
    omega
  rw [← hm]
  unfold Ieee.double Ieee.value at h
  dsimp only at h
  by_cases c1 : b / 2 ^ 52 % 2 ^ 11 = 2 ^ 11 - 1
  · rw [if_pos c1] at h; cases h
  rw [if_neg c1] at h
  by_cases c2 : b / 2 ^ 52 % 2 ^ 11 = 0
  · rw [if_pos c2] at h
    have h := Option.some.inj h
    rw [← h, hs _ (by positivity)] at hn
    exfalso
    have hf' : ((b % 2 ^ 52 : ℕ) : ℚ) < 2 ^ 52 := by exact_mod_cast hf
    have e : (2 : ℚ) ^ (-1022 : ℤ) = 2 ^ 52 * 2 ^ (1 - (2 ^ (11 - 1) - 1) - ((52 : ℕ) : ℤ)) := by
      rw [← zpow_natCast, ← zpow_add₀ (by norm_num : (2 : ℚ) ≠ 0)]
      congr 1
    rw [e] at hn
    exact absurd hn (not_le.2 (mul_lt_mul_of_pos_right hf' (by positivity)))
  · rw [if_neg c2] at h
    have h := Option.some.inj h
    rw [← h, hs _ (by positivity)] at habs
    exact hlow _ habs

/-- a short number that is not tiny arrives in single precision as zero -/
theorem real_single_short {b : ℕ} {q : ℚ} (h : Ieee.double b = some q) (hq : Short q) (hn : (2 : ℚ) ^ (-1022 : ℤ) ≤ |q|) :
    recv .single .real (.float b) = .num (some 0) := by
  show Recv.num (Ieee.single (b % 2 ^ 32)) = _
  rw [low_zero h hq hn, single_zero]

theorem length_halves (n w : ℕ) : (halves (List.replicate n w)).length = 2 * n := by
  induction n with
  | zero => rfl
  | succ n ih =>
    simp only [halves, List.replicate_succ, List.flatMap_cons, List.length_append, List.length_cons, List.length_nil] at ih ⊢
    omega

/-- element `2k` is the low half, element `2k+1` the high half -/
theorem halves_get (n w k : ℕ) (hk : k < n) : (halves (List.replicate n w))[2 * k]? = some (w % 2 ^ 32) ∧
    (halves (List.replicate n w))[2 * k + 1]? = some (w / 2 ^ 32) := by
  induction n generalizing k with
  | zero => omega
  | succ n ih =>
    have e : halves (List.replicate (n + 1) w) = w % 2 ^ 32 :: w / 2 ^ 32 :: halves (List.replicate n w) := by
      simp [halves, List.replicate_succ]
    rw [e]
    cases k with
    | zero => exact ⟨rfl, rfl⟩
    | succ k =>
      have := ih k (by omega)
      rw [show 2 * (k + 1) = 2 * k + 1 + 1 by ring]
      simpa using this

section track
variable {K : Type} [Field K]

/-- an element exists in both lists or in none -/
def Alike (a b : List K) (k : ℤ) : Prop := (∃ u v, rd a k = .ok u ∧ rd b k = .ok v) ∨ (rd a k = .error .oob ∧ rd b k = .error .oob)

theorem alike_map (l : List K) (f : K → K) (k : ℤ) :
    (∃ u, rd l k = .ok u ∧ rd (l.map f) k = .ok (f u)) ∨ (rd l k = .error .oob ∧ rd (l.map f) k = .error .oob) := by
  unfold rd
  split_ifs
  · rw [List.getElem?_map]
    cases l[k.toNat]? with
    | none => exact Or.inr ⟨rfl, rfl⟩
    | some v => exact Or.inl ⟨v, rfl, rfl⟩
  · exact Or.inr ⟨rfl, rfl⟩

theorem alike_of_length {a b : List K} {k : ℤ} (ha : k < a.length) (hb : k < b.length) : Alike a b k := by
  by_cases h : 0 ≤ k
  · refine Or.inl ⟨a[k.toNat]'(by omega), b[k.toNat]'(by omega), ?_, ?_⟩ <;>
    · unfold rd
      rw [if_pos h, List.getElem?_eq_getElem (by omega)]
  · exact Or.inr ⟨by unfold rd; rw [if_neg h], by unfold rd; rw [if_neg h]⟩

theorem gain_zero {sin : K → K} (h0 : sin 0 = 0) (v1 v2 p0 p12 p12' h acc p : K) :
    energyGain sin v1 v2 p0 p12 0 acc p = energyGain sin v1 0 p0 p12' h acc p := by
  unfold energyGain
  rw [zero_mul, zero_mul, h0, mul_zero]

/-- the machine whose second system is switched off -/
def oneSystem (m : Mach K) : Mach K := { m with rf2v := m.rf2v.map fun _ => 0 }

/-- registers with the harmonic ratio zero: the second system has no effect -/
theorem upRegs_zero {sin : K → K} (h0 : sin 0 = 0) (m : Mach K) (turn : ℤ) (p e : K) {ps ps' : List K} (h : K)
    (hp : Alike ps ps' (turn + 1)) :
    upRegs sin { m with hratio := 0, phi12 := ps } turn p e =
      upRegs sin { oneSystem m with hratio := h, phi12 := ps' } turn p e := by
  unfold upRegs oneSystem
  dsimp only
  cases rd m.driftCoef turn with
  | error e => rfl
  | ok coef =>
    cases rd m.rf1v (turn + 1) with
    | error e => rfl
    | ok v1 =>
      rcases alike_map m.rf2v (fun _ => 0) (turn + 1) with ⟨v2, e1, e2⟩ | ⟨e1, e2⟩
      · rw [e1, e2]
        cases rd m.phi0 (turn + 1) with
        | error e => rfl
        | ok p0 =>
          rcases hp with ⟨u, v, e3, e4⟩ | ⟨e3, e4⟩
          · rw [e3, e4]
            cases rd m.deltaE0 (turn + 1) with
            | error e => rfl
            | ok acc =>
              simp only [bind_ok, gain_zero h0 v1 v2 p0 u v h acc]
          · rw [e3, e4]; rfl
      · rw [e1, e2]; rfl

theorem downRegs_zero {sin : K → K} (h0 : sin 0 = 0) (m : Mach K) (turn : ℤ) (p e : K) {ps ps' : List K} (h : K)
    (hp : Alike ps ps' turn) :
    downRegs sin { m with hratio := 0, phi12 := ps } turn p e =
      downRegs sin { oneSystem m with hratio := h, phi12 := ps' } turn p e := by
  unfold downRegs oneSystem
  dsimp only
  cases rd m.rf1v turn with
  | error e => rfl
  | ok v1 =>
    rcases alike_map m.rf2v (fun _ => 0) turn with ⟨v2, e1, e2⟩ | ⟨e1, e2⟩
    · rw [e1, e2]
      cases rd m.phi0 turn with
      | error e => rfl
      | ok p0 =>
        rcases hp with ⟨u, v, e3, e4⟩ | ⟨e3, e4⟩
        · rw [e3, e4]
          cases rd m.deltaE0 turn with
          | error e => rfl
          | ok acc =>
            cases rd m.driftCoef (turn - 1) with
            | error e => rfl
            | ok coef => simp only [bind_ok, gain_zero h0 v1 v2 p0 u v h acc]
        · rw [e3, e4]; rfl
    · rw [e1, e2]; rfl

theorem upLoop_zero {sin : K → K} (h0 : sin 0 = 0) (m : Mach K) {ps ps' : List K} (h : K) {dturns nturns : ℤ} {n tid : ℕ}
    (hp : ∀ k, k ≤ nturns → Alike ps ps' k) (fuel : ℕ) : ∀ (p e : K) (profile turn : ℤ),
    upLoop sin { m with hratio := 0, phi12 := ps } dturns nturns n tid fuel p e profile turn =
      upLoop sin { oneSystem m with hratio := h, phi12 := ps' } dturns nturns n tid fuel p e profile turn := by
  induction fuel with
  | zero => intros; rfl
  | succ fuel ih =>
    intro p e profile turn
    unfold upLoop
    by_cases c : turn < nturns
    · rw [if_pos c, if_pos c, upRegs_zero h0 m turn p e h (hp (turn + 1) (by omega))]
      simp only [ih]
    · rw [if_neg c, if_neg c]

theorem downLoop_zero {sin : K → K} (h0 : sin 0 = 0) (m : Mach K) {ps ps' : List K} (h : K) {dturns nturns : ℤ} {n tid : ℕ}
    (hp : ∀ k, k ≤ nturns → Alike ps ps' k) (fuel : ℕ) : ∀ (p e : K) (profile turn : ℤ), turn ≤ nturns →
    downLoop sin { m with hratio := 0, phi12 := ps } dturns n tid fuel p e profile turn =
      downLoop sin { oneSystem m with hratio := h, phi12 := ps' } dturns n tid fuel p e profile turn := by
  induction fuel with
  | zero => intros; rfl
  | succ fuel ih =>
    intro p e profile turn ht
    unfold downLoop
    by_cases c : 0 < turn
    · rw [if_pos c, if_pos c, downRegs_zero h0 m turn p e h (hp turn ht)]
      have ih' := fun p e profile => ih p e profile (turn - 1) (by omega)
      simp only [ih']
    · rw [if_neg c, if_neg c]

end track
end Verif.CArg
