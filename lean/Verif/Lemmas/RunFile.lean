import Verif.Model.RunFile
import Verif.Spec.RunFile
import Verif.Spec.Run
import Verif.Props.Profiles
import Verif.Props.PreProcess
import Verif.Props.Machine
import Verif.Props.Input

/-! Helper lemmas about `Model/RunFile.lean`. -/

set_option linter.unusedSectionVars false

namespace Verif.Run
open Finset Verif.Asrt Verif.Pre Verif.Prof Verif.Spec Verif.Mch Verif.Inp

variable {S K : Type} [Field K] [LinearOrder K] [IsStrictOrderedRing K]

theorem toWaterfall_inv {f : FrameArgs} {data : List K} {w : Arr2 K} (h : toWaterfall f (some data) = .ok w) :
    ∃ nf sf nb s0 s1 rb : ℕ, f = ⟨nf, sf, nb, s0, s1, rb⟩ ∧ sf < nf ∧ s0 + s1 < nb ∧ 1 ≤ rb ∧ data.length = nf * nb ∧
      w = arr (nf - sf) (nb - s0 - s1) (rawAt nb sf s0 data) := by
  obtain ⟨⟨l, hl, hlen⟩, h1, h2, h3, h4, h5, h6, h7, h8⟩ := (Props.C33_accepts f (some data)).1.mp ⟨w, h⟩
  cases hl
  obtain ⟨nf, sf, nb, s0, s1, rb⟩ := f
  dsimp only at *
  lift nf to ℕ using h1.le
  lift sf to ℕ using h2
  lift nb to ℕ using h4.le
  lift s0 to ℕ using h5
  lift s1 to ℕ using h6
  lift rb to ℕ using (by omega)
  have hll : data.length = nf * nb := by exact_mod_cast hlen
  refine ⟨nf, sf, nb, s0, s1, rb, rfl, by omega, by omega, by omega, hll, ?_⟩
  let _ : Inhabited K := ⟨0⟩
  have ht : data = tab (nf * nb) fun i => data.getD i 0 := by
    have := eq_tab_of_length data
    rw [hll] at this
    exact this
  rw [ht, toWaterfall_eq (by omega) (by omega) (by omega)] at h
  cases h
  exact arr_congr fun i j _ _ => by
    unfold rawAt
    conv_rhs => rw [ht]
    rw [← ht]

theorem rebin_all {n nb rbn : ℕ} (hr : 0 < rbn) (hb : 0 < nb) (f : ℕ → ℕ → K) (dt sx : Option K) :
    rebin (arr n nb f) rbn dt sx = .ok (arr n (rebinCount nb rbn) (rebinned nb rbn f), dt.map fun v => v * (rbn : K),
      sx.map fun v => v / (rbn : K)) := by
  rcases lt_or_ge nb rbn with h | h
  · rw [Props.C32_small_partial hb h]
    have hc : rebinCount nb rbn = 1 := by
      unfold rebinCount
      rw [show nb + rbn - 1 = rbn * 1 + (nb - 1) by omega, Nat.mul_add_div hr, Nat.div_eq_of_lt (by omega)]
    rw [hc]
    congr 2
    apply arr_congr
    intro i k _ _
    unfold rebinned total
    rw [Nat.div_eq_of_lt h, if_neg (by omega)]
    simp
  · obtain ⟨q, rem, hrem, rfl⟩ : ∃ q rem, rem < rbn ∧ nb = (q + 1) * rbn + rem := by
      refine ⟨nb / rbn - 1, nb % rbn, Nat.mod_lt _ hr, ?_⟩
      have : 1 ≤ nb / rbn := (Nat.one_le_div_iff hr).mpr h
      rw [Nat.sub_add_cancel this, Nat.mul_comm, Nat.div_add_mod]
    have hq : ((q + 1) * rbn + rem) / rbn = q + 1 := by rw [Nat.mul_comm, Nat.mul_add_div hr, Nat.div_eq_of_lt hrem]
    rcases Nat.eq_zero_or_pos rem with rfl | h0
    · have hc : rebinCount ((q + 1) * rbn + 0) rbn = q + 1 := by
        unfold rebinCount
        rw [show (q + 1) * rbn + 0 + rbn - 1 = rbn * (q + 1) + (rbn - 1) by rw [Nat.mul_comm]; omega,
          Nat.mul_add_div hr, Nat.div_eq_of_lt (by omega)]
      rw [hc, Nat.add_zero, Props.C32_dividable hr]
      congr 2
      apply arr_congr
      intro i k _ hk
      unfold rebinned
      rw [Nat.add_zero] at hq
      rw [hq, if_pos hk]
    · have hc : rebinCount ((q + 1) * rbn + rem) rbn = q + 2 := by
        unfold rebinCount
        rw [show (q + 1) * rbn + rem + rbn - 1 = rbn * (q + 2) + (rem - 1) by
          have : rbn * (q + 2) = (q + 1) * rbn + rbn := by ring
          omega, Nat.mul_add_div hr, Nat.div_eq_of_lt (by omega)]
      rw [hc, Props.C32_individable_partial h0 hrem]
      congr 2
      apply arr_congr
      intro i k _ hk
      unfold rebinned
      rw [hq]
      split
      · rfl
      · rw [Nat.add_sub_cancel, show (q + 1) * rbn + rem - q * rbn = rbn + rem by rw [Nat.succ_mul]; omega,
          show (q + 1) * rbn + rem + rbn - (q + 1) * rbn = rbn + rem by omega]

theorem setWaterfall_zero {n m : ℕ} (o : PObj K) (f : ℕ → ℕ → K) (hn : n = o.nprofiles)
    (hp : ¬ ∃ i j, i < n ∧ j < m ∧ 0 < f i j) : (setWaterfall o (.array2 (arr n m f))).2 = some .waterfallReducedToZero := by
  subst hn
  unfold setWaterfall
  dsimp only
  rw [arr_rows, length_tab, if_neg (by simp), if_pos]
  rw [clipSums_zero]
  intro r hr v hv
  obtain ⟨i, hi, rfl⟩ := List.mem_map.mp hr
  obtain ⟨j, hj, rfl⟩ := List.mem_map.mp hv
  by_contra hlt
  exact hp ⟨i, j, List.mem_range.mp hi, List.mem_range.mp hj, not_le.mp hlt⟩

/-- the machine after its profiles have been loaded -/
def afterLoad (r : RawMach K) (n nb rbn ref : ℕ) (f : ℕ → ℕ → K) (t : K) : RawMach K :=
  { obj := { waterfall := some (.array2 (arr n (rebinCount nb rbn) (treated nb rbn ref f))), nprofiles := n,
             nbins := rebinCount nb rbn, synchPartY := (rebinCount nb rbn : K) / 2 }
    beamRefFrame := ref, dtbin := t * rbn, synchPartX := r.synchPartX / rbn }

/-- `raw_data_to_profiles` on every waterfall with at least one bin whose reference profile exists -/
theorem rawProfiles_eq {n nb rbn ref : ℕ} {r : RawMach K} (f : ℕ → ℕ → K) (hn : n = r.obj.nprofiles) (hr : 0 < rbn)
    (href : ref < n) (hbr : r.beamRefFrame = ref) (hb : 0 < nb) (t : K) :
    (nb < 20 → rawProfiles r (arr n nb f) rbn t = .error .nonFinite) ∧
    (20 ≤ nb →
      (∃ i k, i < n ∧ k < rebinCount nb rbn ∧ 0 < rebinned nb rbn (fun i j => f i j - baseline nb ref f) i k) →
      rawProfiles r (arr n nb f) rbn t
        = .ok (afterLoad r n nb rbn ref f t, arr n (rebinCount nb rbn) (treated nb rbn ref f))) ∧
    (20 ≤ nb →
      (¬ ∃ i k, i < n ∧ k < rebinCount nb rbn ∧ 0 < rebinned nb rbn (fun i j => f i j - baseline nb ref f) i k) →
      rawProfiles r (arr n nb f) rbn t = .error (.exc .waterfallReducedToZero)) := by
  unfold rawProfiles rawDataToProfiles
  dsimp only
  rw [hbr, calcBaseline_arr href]
  refine ⟨fun h20 => by rw [if_pos h20], fun h20 hp => ?_, fun h20 hp => ?_⟩ <;>
  · rw [if_neg (by omega)]
    dsimp only
    rw [map_sub_arr, rebin_all hr hb]
    dsimp only
    have hb0 : (∑ j ∈ range (nb / 20), f ref j) / ((nb / 20 : ℕ) : K) = baseline nb ref f := rfl
    rw [hb0]
    first
    | simp only [Option.map_some, Option.getD_some, Option.getD_none]
      rw [Props.C43_stores _ _ hn hp]
      simp only [Option.map_none]
      unfold afterLoad
      rw [← hbr]
      rfl
    | have := setWaterfall_zero r.obj _ hn hp
      rcases hs : setWaterfall r.obj (.array2 (arr n (rebinCount nb rbn)
        (rebinned nb rbn fun i j => f i j - baseline nb ref f))) with ⟨o, e⟩
      rw [hs] at this
      dsimp only at this
      subst this
      rfl

theorem npGet_tab_inv {α : Type _} {n : ℕ} {g : ℕ → α} {i : ℤ} {v : α} (h0 : 0 ≤ i) (h : npGet (tab n g) i = .ok v) :
    i.toNat < n := by
  unfold npGet at h
  rw [if_neg (not_lt.mpr h0), if_pos h0, getElem?_tab] at h
  by_contra hn
  rw [if_neg hn] at h
  cases h

theorem npGet_tab_err {α : Type _} {n : ℕ} {g : ℕ → α} {i : ℤ} (h0 : 0 ≤ i) (h : n ≤ i.toNat) :
    npGet (tab n g) i = .error (.exc .indexError) := by
  unfold npGet
  rw [if_neg (not_lt.mpr h0), if_pos h0, getElem?_tab, if_neg (by omega)]

/-- the reference profile does not exist -/
theorem rawProfiles_noRef {n nb rbn : ℕ} {r : RawMach K} (f : ℕ → ℕ → K) (h0 : 0 ≤ r.beamRefFrame)
    (href : n ≤ r.beamRefFrame.toNat) (t : K) :
    rawProfiles r (arr n nb f) rbn t = .error (.exc .indexError) := by
  unfold rawProfiles rawDataToProfiles calcBaseline
  rw [arr_rows, npGet_tab_err h0 href]
  rfl

theorem chargeStep_ok {n m ref : ℕ} (g : ℕ → ℕ → K) (h : ref < n) (t qe s : K) :
    chargeStep (arr n m g) (ref : ℤ) t qe s = .ok () := by
  unfold chargeStep profileCharge
  rw [arr_rows, npGet_tab _ h, bind_ok]
  by_cases hz : qe * s = 0
  · rw [hz, fdiv_zero]
  · rw [fdiv_ok hz]

end Verif.Run
