import Verif.Props.Output

/-!
# Theorems added after unnoticed wrong programs, part 5
-/

namespace Verif.Props
open Verif.Part Verif.Asrt Verif.Text Verif.Spec Verif.Psi Verif.Mch Verif.Run

/-- C82: what is printed when tracking with self fields, for any number of turns between profiles: first a message from the profile to
itself, then the later profiles, then the earlier ones, each one too low (the last message, if any, names a profile zero). -/
theorem C82_self_messages (d P r : ℕ) (hd : 0 < d) (hr : r < P) :
    (trackOutSelf d P r).map slices = some ((r : ℤ) + 1, (r : ℤ) + 1) ::
      (((List.range (P - 1 - r)).map fun k : ℕ => some ((r : ℤ) + 1, (r : ℤ) + 2 + k)) ++
        (List.range r).map fun k : ℕ => some ((r : ℤ) + 1, (r : ℤ) - 1 - k)) := by
  unfold trackOutSelf
  have h1 : ((d : ℤ) * ((P : ℤ) - 1) - (r : ℤ) * d).toNat = (P - 1 - r) * d := by
    have : (d : ℤ) * ((P : ℤ) - 1) - (r : ℤ) * d = (((P - 1 - r) * d : ℕ) : ℤ) := by
      push_cast
      rw [show ((P - 1 - r : ℕ) : ℤ) = (P : ℤ) - 1 - r by omega]
      ring
    rw [this, Int.toNat_natCast]
  have h2 : ((r : ℤ) * d).toNat = r * d := by
    rw [show (r : ℤ) * d = ((r * d : ℕ) : ℤ) by push_cast; ring, Int.toNat_natCast]
  dsimp only
  rw [h1, h2, up_times d, show downPrintSelf = downPrint from rfl, down_times d, Nat.mul_div_cancel _ hd, Nat.mul_div_cancel _ hd]
  simp only [List.map_append, List.map_map, List.map_cons, List.map_nil, slices_status, List.cons_append, List.nil_append]
  congr 2
  · apply List.map_congr_left
    intro k _
    simp only [Function.comp, slices_status]
    congr 2
    ring
  · apply List.map_congr_left
    intro k _
    simp only [Function.comp, slices_status]
    congr 2
    ring

/-- one turn between profiles, the third of four -/
example : (trackOutSelf 1 4 2).map slices = [some (3, 3), some (3, 4), some (3, 1), some (3, 0)] := by decide +kernel

variable {K : Type} [Field K] [LinearOrder K] [IsStrictOrderedRing K] [FloorRing K]

/-- C81: the plot information that a run prints holds the sizes of its machine and the results of its fit (lower foot, upper foot,
position), each under its own label; zeros when there was no fit. -/
theorem C81_run_partial {L : MathLib K} {m : Run.Mach K} {fit : Option (K × K × K)} {charge : K} {recArg : Option ℤ} {P d : ℕ}
    (hP : m.nprofiles = P) (hd : m.dturns = d) {out : List Txt} (h : runOut L m fit charge recArg = .ok out) :
    ∃ info, out[1]? = some info ∧
      (field " profilecount = ".toList info).bind readInt = some (m.nprofiles : ℤ) ∧
      (field " profilelength = ".toList info).bind readInt = some (m.nbins : ℤ) ∧
      (∃ y, (field " dtbin = ".toList info).bind readNum = some y ∧ Digits 4 m.dtbin y) ∧
      (∃ y, (field " eperimage = ".toList info).bind readNum = some y ∧ Digits 3 charge y) ∧
      (∃ y, (field " xat0 =  ".toList info).bind readNum = some y ∧ Places 3 m.synchPartX y) ∧
      (∃ y, (field " yat0 =  ".toList info).bind readNum = some y ∧ Places 3 m.synchPartY y) ∧
      ∃ l u x, (field " tangentfootl =    ".toList info).bind readNum = some l ∧
        (field " tangentfootu =    ".toList info).bind readNum = some u ∧
        (field " fit xat0 =   ".toList info).bind readNum = some x ∧
        (∀ fx fl fu, fit = some (fx, fl, fu) → Places 3 fl l ∧ Places 3 fu u ∧ Places 3 fx x) ∧
        (fit = none → l = 0 ∧ u = 0 ∧ x = 0) := by
  obtain ⟨r, info, dE, imin, imax, _, _, hi, ht, _, _⟩ := C82_run_partial hP hd h
  refine ⟨info, ?_, ?_⟩
  · have := congrArg (fun t => t[1]?) ht
    simpa [List.getElem?_take] using this
  have hi' := hi
  unfold writePlotinfo at hi'
  simp only [bind_ok_iff] at hi'
  obtain ⟨_, _, _, _, _, _, phase, hph, _⟩ := hi'
  obtain ⟨text, h1, v1, v2, v3, _, v5, v6, v7, _, _⟩ := C81_values (infoMach m fit) dE charge phase imin imax hph
  rw [h1] at hi
  cases hi
  obtain ⟨l, u, x, f1, f2, f3, f4, f5⟩ := C81_fit _ _ _ h1
  refine ⟨v1, v2, v3, v5, v6, v7, l, u, x, f1, f2, f3, ?_, ?_⟩
  · rintro fx fl fu rfl
    exact f4 fx fl fu rfl rfl rfl
  · rintro rfl
    exact f5 rfl

/-- a run with a fit: the feet are printed under their own labels -/
example : (match runOut libQ { runMach with phi0 := [0, 1, 0] } (some (9 / 4, 1 / 2, 7 / 2)) 7 none with
      | .ok (_ :: info :: _) => [" tangentfootl =    ", " tangentfootu =    ", " fit xat0 =   "].map fun l =>
          String.ofList ((field l.toList info).getD [])
      | _ => []) = ["0.500", "3.500", "2.250"] := by decide +kernel

end Verif.Props
