import Verif.Props.OmpOne
import Verif.Props.Object
import Verif.Props.Multi
import Verif.Props.SelfField
import Verif.Props.StepTrack
import Verif.Props.Converge
import Verif.Props.TomographicsArea
import Verif.Props.Machine

/-!
# Cases for the property theorems

For theorems that have no example beside them: each `example` here applies the theorem, by name, to data for which its hypotheses are
proved.
-/

set_option linter.unusedSectionVars false

namespace Verif.Props

section omp
open Verif.Par Verif.Omp Verif.Spec Verif.Recon Verif.Track

theorem cyclic (n : ℕ) : Assigned 2 (fun i => i % 2) n := fun _ _ => Nat.mod_lt _ (by decide)

example : Always ⟨parMem, parallelFor 2 (fun i => i % 2) 4 (clipBody .profiles 0)⟩
    (fun m => Stores (reals m .profiles) [3/4, 1/4, 6/5, 0] ∧ OnlyArray .profiles parMem m) :=
  C15_clip (l := [3/4, 1/4, 6/5, -1/5]) (cyclic 4) (stores_memOf _ _ _ _) (by decide +kernel)

example : Always ⟨parMem, parallelFor 2 (fun i => i % 2) 4 differenceBody⟩
    (fun m => Stores (reals m .diff) [-1/4, -7/4, -9/5, -21/5] ∧ OnlyArray .diff parMem m) :=
  C15_difference (d := [1, 2, 3, 4]) (rc := [1, 2, 3, 4]) (pf := [3/4, 1/4, 6/5, -1/5]) (cyclic 4) (stores_memOf _ _ _ _)
    (stores_memOf _ _ _ _) (stores_memOf _ _ _ _) (by decide +kernel)

example : Always ⟨parMem, parallelFor 2 (fun i => i % 2) 4 zerosToOnesBody⟩
    (fun m => Stores (reals m .rparts) [1, 1, 2, 1] ∧ OnlyArray .rparts parMem m) :=
  C15_zeros_to_ones (l := [1, 0, 2, 0]) (cyclic 4) (stores_memOf _ _ _ _) (by decide +kernel)

/-- with the identity for the sine: energies 3, 4, 5 and phases 1, 2, 3 -/
example : Always ⟨parMem, parallelFor 2 (fun i => i % 2) 3 (kickUpBody id 2 3 1 5 2 7)⟩
    (fun m => Stores (reals m .denergy) [-18, -9, 0] ∧ OnlyArray .denergy parMem m) :=
  C15_kick_up id 2 3 1 5 2 7 (dp := [1, 2, 3]) (de := [3, 4, 5]) (cyclic 3) (stores_memOf _ _ _ _) (stores_memOf _ _ _ _)
    (by decide +kernel)

example : Always ⟨parMem, parallelFor 2 (fun i => i % 2) 3 (kickDownBody id 2 3 1 5 2 7)⟩
    (fun m => Stores (reals m .denergy) [24, 17, 10] ∧ OnlyArray .denergy parMem m) :=
  C15_kick_down id 2 3 1 5 2 7 (dp := [1, 2, 3]) (de := [3, 4, 5]) (cyclic 3) (stores_memOf _ _ _ _) (stores_memOf _ _ _ _)
    (by decide +kernel)

example : Always ⟨parMem, parallelFor 2 (fun i => i % 2) 3 (driftDownBody (1/2))⟩
    (fun m => Stores (reals m .dphi) [5/2, 4, 11/2] ∧ OnlyArray .dphi parMem m) :=
  C15_drift_down (1/2) (dp := [1, 2, 3]) (de := [3, 4, 5]) (cyclic 3) (stores_memOf _ _ _ _) (stores_memOf _ _ _ _) (by decide +kernel)

example : Always ⟨bufs [(.rparts, [1, 4, 2, (1 : ℚ)])] [] [], parallelFor 1 (fun _ => 0) 2 (reciprocalBody 4 2)⟩
    (fun m => Stores (reals m .rparts) [4, 1, 2, 4]) :=
  C15_reciprocal_partial (l := [1, 4, 2, 1]) (stores_memOf _ _ _ _) (by decide +kernel)

end omp

section multi
open Finset Verif.Spec Verif.Recon Verif.Multi

/-- the final state of a computation known to end well -/
theorem ended {α : Type} {x : Verif.M α} (h : x.toOption.isSome = true) : ∃ a, x = .ok a := by
  cases x with
  | ok a => exact ⟨a, rfl⟩
  | error e => cases h

theorem twoBunches_run : ∃ st, (multi id 0 twoBunches wfB 2).2 = .ok st := ended (by decide +kernel)

example : ∃ st, (multi id 0 twoBunches wfB 2).2 = .ok st ∧ st.discr.length = 3 ∧ st.split.length = 6 := by
  obtain ⟨st, h⟩ := twoBunches_run
  obtain ⟨-, -, h1, h2, -⟩ := C46_weights id 0 twoBunches_ok wfB_nonneg 2 h
  exact ⟨st, h, h1, h2⟩

example : ∃ (st : MState ℚ) (r : ℕ → ℕ → ℚ), (multi id 0 twoBunches wfB 2).2 = .ok st ∧
    st.discr[2]? = some (meanSquare twoBunches.nprof twoBunches.nbins fun p b => wfB p b - r p b) := by
  obtain ⟨st, h⟩ := twoBunches_run
  obtain ⟨r, -, h1⟩ := C46_discrepancy id 0 twoBunches_ok wfB_nonneg 2 h
  exact ⟨st, r, h, h1⟩

example : ∃ (st : MState ℚ) (w s : ℕ → ℕ → ℚ) (B : Bunches ℚ), (multi id 0 twoBunches wfB 2).2 = .ok st ∧ st.split = flat 3 2 s ∧
    unpack st 2 2 2 = .ok B ∧ B.weightSplit = tab 2 (fun c => tab 2 (w c)) := by
  obtain ⟨st, h⟩ := twoBunches_run
  obtain ⟨w, s, B, -, h2, h3, -, h5, -⟩ := C46_unpacked id 0 twoBunches_ok wfB_nonneg 2 h
  exact ⟨st, w, s, B, h, h2, h3, h5⟩

example : splitMsq 1 4 (fun _ => ((1 : ℕ) : ℤ)) (fun _ => ((4 : ℕ) : ℤ)) (fun _ b => (b : ℚ) - 1) 0
    = meanSquareCut 1 1 4 (fun _ b => (b : ℚ) - 1) :=
  C46_split_right_partial 4 1 4 (by decide) (by decide) _ (by norm_num)

end multi

section object
open Verif.Spec Verif.Recon Verif.Tomo Verif.Multi Verif.Obj

example :
    let o := runOps (α := ℚ) id (ofList [.xp (oneIn 1), .run 1 .done, .xp oneInEach]) secondBin
    (step id (.hybrid 2) o).1.weight = o.weight ∧ (step id (.hybrid 2) o).1.c = o.c :=
  let ⟨_, _, h, h', _⟩ := C102_hybrid (α := ℚ) id [0, 1] 1 2 (ofList [.xp (oneIn 1), .run 1 .done, .xp oneInEach]) 2
    (sh := [2, 1]) (x := [0, 1]) (npart := 2) (by decide +kernel) (by decide +kernel)
  ⟨h, h'⟩

example :
    let o := runOps (α := ℚ) id (ofList [.xp oneInEach]) secondBin
    (step id (.run 2 (.call .nil (some .valueError) .done)) o).1 = o :=
  C102_failed_partial (α := ℚ) id [0, 1] 1 2 (ofList [.xp oneInEach]) (.run 2 (.call .nil (some .valueError) .done)) ⟨rfl, trivial⟩
    (e := .exc .valueError) (by decide +kernel)

end object


section selfField
open Verif.SelfF
open Verif.Spec (SelfProgram AgreesS transportS bin)

/-- the program of `selfField`: interval of six bins, table `0, 1, 2, 3, 4, 5, 0` -/
def selfProg : SelfProgram ℚ where
  R := { driftProg with h := 1 }
  xorigin := 0
  drad := fun _ => 1
  wrap := 6
  q := 1
  V := fun _ j => if j = -1 then 0 else ([0, 1, 2, 3, 4, 5, 0] : List ℚ).getD j.toNat 0
  d := 1

theorem selfField_agrees : AgreesS selfTrack 0 selfField 2 1 6 selfProg := by
  refine ⟨selfSetup.mach, fun t ht => ⟨1, ?_, show (1 : ℚ) * 1 * 1 = 1 by norm_num⟩, ⟨fun _ j => ([0, 1, 2, 3, 4, 5, 0] : List ℚ).getD j 0, ?_, ?_, ?_⟩, rfl, rfl, rfl,
    by decide +kernel, by decide +kernel, fun t _ => one_pos⟩
  · have : t = 0 ∨ t = 1 := by omega
    rcases this with rfl | rfl <;> rfl
  · decide +kernel
  · intro p j
    show (if (j : ℤ) = -1 then (0 : ℚ) else _) = _
    rw [if_neg (by omega)]
    rfl
  · intro p
    simp [selfProg]

example (φ : ℚ) : ∃ v, (calcXpSf selfField selfTrack.phi0 1 [φ] >>= lookup selfField 0 0) = .ok [v] :=
  (C44_down_lookup_iff selfField_agrees (t := 1) (p := 0) le_rfl (by decide)).2 (by decide +kernel) φ

example (φ : ℚ) : ∃ v, (calcXpSf selfField selfTrack.phi0 1 [φ] >>= lookup selfField 0 (-1)) = .ok [v] :=
  (C44_up_lookup_iff selfField_agrees (t := 1) (p := 0) le_rfl (by decide)).2 (by decide +kernel) φ

example := C62_rows selfField_agrees (id : ℚ → ℚ) (fun _ _ => show (6 : ℚ) ≤ (((6 : ℕ) : ℚ) + 1) * 1 by norm_num) (by decide) rfl (r := 1) (by decide) 2
  (fun i => ((i : ℚ), 1))

end selfField

section steps
open Verif.Spec Verif.Track Verif.StepT Verif.Bind

example : ∃ st, kickAndDriftH envX (stepHeap .f64) stepObj 0 1 2 3 ((2 : ℕ) * ((2 : ℕ) - 1)) (2 : ℕ) (0 : ℕ) 0 = .ok st ∧
    Holds st.outPhi st.outEn 2 2 (fun p i => transport envX.sin driftProg 0 (p * 2) (0, (i : ℚ) + 1)) := by
  obtain ⟨st, h, h1, -⟩ := C106_coordinates_partial envX (fun _ => rfl) (n := 2) (c := fun i => (0, (i : ℚ) + 1)) ⟨rfl, by decide +kernel⟩
    ⟨rfl, by decide +kernel⟩ (by decide) (step_inMemory .f64) (by decide) rfl spread_drift_agrees (r := 0) (s := 0) (δ := 0) (by decide)
    (by decide) (by decide) (by decide)
  exact ⟨st, h, h1⟩

end steps

section converge
open Finset Verif.Spec Verif.Recon

theorem xEven_covered : Covered 4 2 2 xEven wfCov := by
  intro p hp b hb _
  have h := xEven_counts p hp b hb
  unfold count at h
  obtain ⟨i, hi⟩ := Finset.card_pos.mp (show 0 < #{i ∈ range 4 | xEven i p = b} by omega)
  exact ⟨i, by simpa using hi⟩

example : ∃ st : RState ℚ, (run id 4 2 2 xEven wfCov 1000).2 = .ok st :=
  (C116_returns id (by decide) xEven_inRange wfCov_profiled xEven_covered 1000).1

example (k n : ℕ) : ∃ s t : RState ℚ, (run id 4 2 2 xEven wfCov k).2 = .ok s ∧ (run id 4 2 2 xEven wfCov (k + n)).2 = .ok t ∧
    s.weights.sum ≤ t.weights.sum := by
  obtain ⟨s, h1⟩ := (C116_returns (id : ℚ → ℚ) (by decide) xEven_inRange wfCov_profiled xEven_covered k).1
  obtain ⟨t, h2⟩ := (C116_returns (id : ℚ → ℚ) (by decide) xEven_inRange wfCov_profiled xEven_covered (k + n)).1
  exact ⟨s, t, h1, h2, (C116_total id (by decide) (by decide) xEven_inRange wfCov_profiled xEven_covered h1 h2).1⟩

end converge

section area
open Verif.Asrt Verif.Mch Verif.Pre Verif.Post Verif.Spec Verif.Graph Finset

example : ∃ a b, emittanceDensity (⟨2, [[1 / 2, 1 / 4], [1 / 8, 1 / 8]]⟩ : Arr2 ℚ) 3 5 (1 / 2) = .ok a ∧
    emittanceDensity (⟨2, [[1 / 2, 1 / 4], [1 / 8, 1 / 8]]⟩ : Arr2 ℚ) 3 5 (9 / 10) = .ok b ∧ 0 ≤ a ∧ a ≤ b :=
  C74_monotone _ (by decide +kernel) (by norm_num) (by norm_num) (by norm_num) (by decide +kernel) (by norm_num) (by norm_num)

end area

section machine
open Verif.Spec Verif.Asrt Verif.Track Verif.Mch

/-- the particles start on the synchronous one, in the last profile of the accelerating machine -/
example (X : ℕ → ℕ → ℝ × ℝ) : ∃ o st Y, valuesAtTurns realLib realArgs = .ok o ∧
    cppTrack realLib.sin (trackArrays realPars o) 3 7 realPars.dturns.toNat 2 0 X (fun _ => (0, 0)) = .ok st ∧
    Holds st.xp st.yp 3 7 Y ∧ ∀ i, Y 1 i = (0, 0) ∧ Y 2 i = (0, 0) := by
  obtain ⟨o, ho⟩ := real_values
  obtain ⟨st, Y, h1, h2, h3⟩ := C25_tracked_rows_partial realLib realArgs realPars o realArgs_ok ho 3 7 2 rfl (by decide) (by decide) X
  exact ⟨o, st, Y, ho, h1, h2, fun i => ⟨h3 1 i (by decide) (by decide), h3 2 i (by decide) (by decide)⟩⟩

end machine

end Verif.Props
