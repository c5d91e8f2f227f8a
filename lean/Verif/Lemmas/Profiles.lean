import Verif.Model.Profiles
import Verif.Lemmas.PreProcess
import Verif.Lemmas.Assertions

/-! Helper lemmas about `Model/Profiles.lean`. -/

set_option linter.unusedSectionVars false

namespace Verif.Prof
open Finset Verif.Asrt Verif.Pre

/-- the frame parameters are consistent -/
def FrameOk (f : FrameArgs) : Prop :=
  0 < f.nframes ∧ 0 ≤ f.skipFrames ∧ f.skipFrames < f.nframes ∧ 0 < f.nbinsFrame ∧ 0 ≤ f.skipBinsStart ∧ 0 ≤ f.skipBinsEnd ∧
    f.skipBinsStart + f.skipBinsEnd < f.nbinsFrame ∧ 1 ≤ f.rebin

theorem assertFrameInputs_checks (f : FrameArgs) : Checks (assertFrameInputs f) (FrameOk f) .inputError := by
  unfold assertFrameInputs assertGreater assertInrange assertLess assertGreaterOrEqual FrameOk raise
  constructor
  · rintro ⟨h1, h2, h3, h4, h5, h6, h7, h8⟩
    rw [if_neg (by omega), bind_ok, if_neg (by omega), bind_ok, if_neg (by omega), bind_ok, if_neg (by omega), bind_ok,
      if_neg (by omega), bind_ok, if_neg (by omega), bind_ok, if_neg (by omega)]
  · intro h
    by_cases c1 : f.nframes ≤ 0
    · rw [if_pos c1]; rfl
    rw [if_neg c1, bind_ok]
    by_cases c2 : f.skipFrames < 0 ∨ f.nframes - 1 < f.skipFrames
    · rw [if_pos c2]; rfl
    rw [if_neg c2, bind_ok]
    by_cases c3 : f.nbinsFrame ≤ 0
    · rw [if_pos c3]; rfl
    rw [if_neg c3, bind_ok]
    by_cases c4 : f.skipBinsStart < 0 ∨ f.nbinsFrame - 1 < f.skipBinsStart
    · rw [if_pos c4]; rfl
    rw [if_neg c4, bind_ok]
    by_cases c5 : f.skipBinsEnd < 0 ∨ f.nbinsFrame - 1 < f.skipBinsEnd
    · rw [if_pos c5]; rfl
    rw [if_neg c5, bind_ok]
    by_cases c6 : f.nbinsFrame ≤ f.skipBinsStart + f.skipBinsEnd
    · rw [if_pos c6]; rfl
    rw [if_neg c6, bind_ok, if_pos (by omega)]

theorem sliceRows_arr {α : Type _} {n m a : ℕ} (g : ℕ → ℕ → α) (h : a ≤ n) :
    sliceRows (arr n m g) a = arr (n - a) m fun i j => g (a + i) j := by
  unfold sliceRows
  rw [arr_cols, arr_rows, length_tab, npSlice_of _ (sliceIdx_nat h) (sliceIdx_nat le_rfl) le_rfl h]
  rfl

theorem toWaterfall_eq {α : Type _} {nf nb sf s0 s1 rb : ℕ} (hf : sf < nf) (hs : s0 + s1 < nb) (hr : 1 ≤ rb) (g : ℕ → α) :
    toWaterfall ⟨nf, sf, nb, s0, s1, rb⟩ (some (tab (nf * nb) g))
      = .ok (arr (nf - sf) (nb - s0 - s1) fun i j => g ((sf + i) * nb + (s0 + j))) := by
  have hok : FrameOk ⟨nf, sf, nb, s0, s1, rb⟩ := by
    unfold FrameOk
    dsimp only
    omega
  unfold toWaterfall assertRawData
  dsimp only
  rw [length_tab, if_pos (by push_cast; rfl), bind_ok, (assertFrameInputs_checks _).1 hok, bind_ok, Int.toNat_natCast,
    Int.toNat_natCast, reshape_tab g rfl, bind_ok]
  rw [sliceRows_arr _ hf.le]
  by_cases h1 : (0 : ℤ) < s1
  · rw [if_pos h1, sliceCols_arr _ (sliceIdx_nat (by omega)) (sliceIdx_neg (by omega)) (by omega) (by omega), pure_eq_ok]
    congr 1
    exact arr_ext rfl (by omega) (fun _ _ _ _ => rfl)
  · rw [if_neg h1, arr_cols, sliceCols_arr _ (sliceIdx_nat (by omega)) (sliceIdx_nat le_rfl) le_rfl (by omega), pure_eq_ok]
    congr 1
    exact arr_ext rfl (by omega) (fun _ _ _ _ => rfl)

section
variable {K : Type _} [Field K] [LinearOrder K] [IsStrictOrderedRing K]

theorem npGet_tab_nat {α : Type _} {n i : ℕ} (f : ℕ → α) (h : i < n) : npGet (tab n f) (i : ℤ) = .ok (f i) := npGet_tab f h

theorem calcBaseline_arr {n m r : ℕ} (hr : r < n) (f : ℕ → ℕ → K) :
    calcBaseline (arr n m f) (r : ℤ) =
      if m < 20 then .error .nonFinite else .ok ((∑ j ∈ range (m / 20), f r j) / ((m / 20 : ℕ) : K)) := by
  unfold calcBaseline
  rw [arr_rows, npGet_tab _ hr, bind_ok]
  dsimp only
  rw [length_tab]
  have h0 : sliceIdx m 0 = 0 := sliceIdx_nat (i := 0) (Nat.zero_le _)
  rw [npSlice_of (f r) h0 (sliceIdx_nat (Nat.div_le_self m 20)) (Nat.div_le_self m 20) (Nat.zero_le _), sum_tab]
  simp only [Nat.sub_zero, Nat.zero_add]
  by_cases h : m < 20
  · rw [if_pos h]
    have : m / 20 = 0 := Nat.div_eq_of_lt h
    rw [this, Nat.cast_zero, fdiv_zero]
  · rw [if_neg h, fdiv_ok]
    have : m / 20 ≠ 0 := by omega
    exact_mod_cast this

theorem sum_list_nonneg {l : List K} (h : ∀ v ∈ l, 0 ≤ v) : 0 ≤ l.sum := by
  induction l with
  | nil => simp
  | cons a l ih =>
    rw [List.sum_cons]
    have h1 := h a (by simp)
    have h2 := ih fun v hv => h v (by simp [hv])
    linarith

theorem sum_list_zero {l : List K} (h : ∀ v ∈ l, 0 ≤ v) : l.sum = 0 ↔ ∀ v ∈ l, v = 0 := by
  induction l with
  | nil => simp
  | cons a l ih =>
    rw [List.sum_cons]
    have h1 := h a (by simp)
    have h2 := sum_list_nonneg fun v (hv : v ∈ l) => h v (by simp [hv])
    have ih' := ih fun v hv => h v (by simp [hv])
    constructor
    · intro he
      have ha : a = 0 := by linarith
      have hl : l.sum = 0 := by linarith
      intro v hv
      rcases List.mem_cons.mp hv with rfl | hv
      · exact ha
      · exact ih'.mp hl v hv
    · intro hv
      have ha := hv a (by simp)
      have hl := ih'.mpr fun v hv' => hv v (by simp [hv'])
      linarith

/-- a clipped array sums to zero exactly when no value is positive -/
theorem clipSum_zero (l : List K) : ((Tomo.npClip0 l).map absv).sum = 0 ↔ ∀ v ∈ l, v ≤ 0 := by
  rw [sum_list_zero]
  · unfold Tomo.npClip0
    simp only [List.mem_map]
    constructor
    · intro h v hv
      have := h (absv (if v < 0 then 0 else v)) ⟨_, ⟨v, hv, rfl⟩, rfl⟩
      rw [absv_eq, abs_eq_zero] at this
      split at this
      · rename_i hlt; exact hlt.le
      · exact this.le
    · rintro h _ ⟨_, ⟨v, hv, rfl⟩, rfl⟩
      rw [absv_eq, abs_eq_zero]
      split
      · rfl
      · rename_i hn
        exact le_antisymm (h v hv) (not_lt.mp hn)
  · intro v hv
    obtain ⟨w, _, rfl⟩ := List.mem_map.mp hv
    rw [absv_eq]
    exact abs_nonneg w

theorem clipSums_zero (rows : List (List K)) :
    (((rows.map Tomo.npClip0).map fun r => (r.map absv).sum).sum) = 0 ↔ ∀ r ∈ rows, ∀ v ∈ r, v ≤ 0 := by
  rw [List.map_map, sum_list_zero]
  · constructor
    · intro h r hr
      exact (clipSum_zero r).mp (h _ (List.mem_map.mpr ⟨r, hr, rfl⟩))
    · intro h v hv
      obtain ⟨r, hr, rfl⟩ := List.mem_map.mp hv
      exact (clipSum_zero r).mpr (h r hr)
  · intro v hv
    obtain ⟨r, _, rfl⟩ := List.mem_map.mp hv
    apply sum_list_nonneg
    intro w hw
    obtain ⟨x, _, rfl⟩ := List.mem_map.mp hw
    rw [absv_eq]
    exact abs_nonneg x

theorem map_sub_arr (n m : ℕ) (f : ℕ → ℕ → K) (b : K) : (arr n m f).map (fun v => v - b) = arr n m fun i j => f i j - b :=
  map_arr _ n m f

theorem npClip0_tab (n : ℕ) (f : ℕ → K) : Tomo.npClip0 (tab n f) = tab n fun i => max (f i) 0 := by
  unfold Tomo.npClip0
  rw [map_tab]
  apply tab_congr
  intro i _
  split
  · rename_i h; exact (max_eq_right h.le).symm
  · rename_i h; exact (max_eq_left (not_lt.mp h)).symm

end
end Verif.Prof
