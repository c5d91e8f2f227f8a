import Verif.Spec.Bind
import Verif.Lemmas.Bind
import Verif.Props.Tracking

/-!
# Results reach the caller (C87, C88, C89)
-/

set_option linter.unusedSectionVars false

namespace Verif.Props
open Verif.Bind Verif.Spec

section
variable {α : Type} [Add α] [Sub α] [Mul α]

/-- the arrays `track` makes -/
def trackArrs (E : Env α) (d : DType) (m : Track.Mach α) (P : Int) (dphi denergy : List α) : List (NdArr α) :=
  [castNew E d [dphi], castNew E d [denergy], castNew E d [dphi], castNew E d [denergy],
      castNew E d [m.rf1v], castNew E d [m.rf2v], castNew E d [m.phi0], castNew E d [m.deltaE0],
      castNew E d [m.driftCoef], castNew E d (List.replicate P.toNat (List.replicate dphi.length E.zero)),
      castNew E d (List.replicate P.toNat (List.replicate dphi.length E.zero))]

/-- the nine arrays handed to the compiled code, with their addresses -/
def passedArrs (E : Env α) (d : DType) (m : Track.Mach α) (P : Int) (dphi denergy : List α) (b : Int) :
    List (Int × NdArr α) :=
  let z := castNew E d (List.replicate P.toNat (List.replicate dphi.length E.zero))
  [(b + 9, z), (b + 10, z), (b + 1, castNew E d [denergy]), (b + 0, castNew E d [dphi]), (b + 4, castNew E d [m.rf1v]),
    (b + 5, castNew E d [m.rf2v]), (b + 6, castNew E d [m.phi0]), (b + 7, castNew E d [m.deltaE0]),
    (b + 8, castNew E d [m.driftCoef])]

theorem passed_rd (E : Env α) (d : DType) (m : Track.Mach α) (P : Int) (dphi denergy : List α) (h : Heap α) :
    ∀ x ∈ passedArrs E d m P dphi denergy h.length, rd (h ++ trackArrs E d m P dphi denergy) x.1 = .ok x.2 ∧
      x.2.dtype = d ∧ x.2.order = .c := by
  intro x hx
  simp only [passedArrs, List.mem_cons, List.not_mem_nil, or_false] at hx
  rcases hx with rfl | rfl | rfl | rfl | rfl | rfl | rfl | rfl | rfl <;> refine ⟨?_, rfl, rfl⟩
  · exact rd_right h _ 9
  · exact rd_right h _ 10
  · exact rd_right h _ 1
  · exact rd_right h _ 0
  · exact rd_right h _ 4
  · exact rd_right h _ 5
  · exact rd_right h _ 6
  · exact rd_right h _ 7
  · exact rd_right h _ 8

theorem track_unfold (E : Env α) (d : DType) (m : Track.Mach α) (φ η : Num α) (P dt rp δ : Int) (dphi denergy : List α)
    (ftn : Bool) (cb : PyVal α) (h : Heap α) {r : Int} (hc : Track.trackCheck P dt rp δ = .ok r) :
    Bind.track E d m φ η P dt rp δ dphi denergy ftn cb h =
      (do
        let x ← resolve E (h ++ trackArrs E d m P dphi denergy) kadOverloads
          (refs ((passedArrs E d m P dphi denergy h.length).map (·.1)) ++
            tailArgs φ η dt r δ (dt * (P - 1)) dphi.length ftn cb)
        let res ← kadCall E x
        pure (res.1, (h.length : Int) + 9, (h.length : Int) + 10)) := by
  unfold Bind.track
  rw [hc]
  unfold kickAndDriftCall
  simp only [bind_assoc]
  rfl

theorem flatten_cast (E : Env α) (d : DType) (v : List α) : (castNew E d [v]).rows.flatten = inPrecision E d v := by
  simp [castNew, inPrecision]

theorem rows_zero (E : Env α) (d : DType) (P : Int) (n : ℕ) :
    (castNew E d (List.replicate P.toNat (List.replicate n E.zero))).rows = untouched E d P n := by
  simp [castNew, untouched]

/-- the body on the arrays of `track` themselves -/
theorem body_inplace (E : Env α) (d : DType) (m : Track.Mach α) (P dt r δ nt : Int) (dphi denergy phi12 : List α) (hr : α)
    (h : Heap α) :
    contents (do
        let g ← kadArrayBody E (h ++ trackArrs E d m P dphi denergy) (h.length + 9) (h.length + 10) (h.length + 1)
          (h.length + 0) (h.length + 4) (h.length + 5) (h.length + 6) (h.length + 7) (h.length + 8) phi12 hr dt r δ nt
          dphi.length
        pure (g, (h.length : Int) + 9, (h.length : Int) + 10)) =
      (do
        let s ← Track.kickAndDrift E.sin (untouched E d P dphi.length) (untouched E d P dphi.length)
          (inPrecision E d denergy) (inPrecision E d dphi) (machineIn E d m phi12 hr) dt r δ nt dphi.length
        pure (s.xp, s.yp)) := by
  have hp := passed_rd E d m P dphi denergy h
  simp only [passedArrs, List.mem_cons, List.not_mem_nil, or_false, forall_eq_or_imp, forall_eq] at hp
  obtain ⟨⟨q1, -⟩, ⟨q2, -⟩, ⟨q3, -⟩, ⟨q4, -⟩, ⟨q5, -⟩, ⟨q6, -⟩, ⟨q7, -⟩, ⟨q8, -⟩, ⟨q9, -⟩⟩ := hp
  have hs := kadArrayBody_spec E q1 q2 q3 q4 q5 q6 q7 q8 q9 (by omega) (by omega) (by omega) (by omega) (by omega)
    (by omega) phi12 hr dt r δ nt dphi.length
  simp only [flatten_cast, rows_zero, Int.toNat_natCast] at hs
  unfold machineIn
  cases hk : Track.kickAndDrift E.sin (untouched E d P dphi.length) (untouched E d P dphi.length)
      (inPrecision E d denergy) (inPrecision E d dphi) ⟨inPrecision E d m.rf1v, inPrecision E d m.rf2v,
        inPrecision E d m.phi0, inPrecision E d m.deltaE0, inPrecision E d m.driftCoef, phi12, hr⟩ dt r δ nt
      dphi.length with
  | error f =>
    rw [hk] at hs
    dsimp only at hs
    rw [hs]
    rfl
  | ok s =>
    rw [hk] at hs
    obtain ⟨g, e1, e2, e3, -⟩ := hs
    rw [e1]
    simp [contents, rowsAt, e2, e3]

/-- the body on copies of the arrays of `track` -/
theorem body_copies (E : Env α) (d d' : DType) (m : Track.Mach α) (P dt r δ nt : Int) (dphi denergy phi12 : List α)
    (hr : α) (h : Heap α) (c : Int)
    (hc : c = (h ++ trackArrs E d m P dphi denergy).length) :
    contents (do
        let g ← kadArrayBody E ((h ++ trackArrs E d m P dphi denergy) ++
          (passedArrs E d m P dphi denergy h.length).map (fun x => convertArr E d' x.2)) (c + 0) (c + 1) (c + 2)
          (c + 3) (c + 4) (c + 5) (c + 6) (c + 7) (c + 8) phi12 hr dt r δ nt dphi.length
        pure (g, (h.length : Int) + 9, (h.length : Int) + 10)) =
      (do
        let _ ← Track.kickAndDrift E.sin ((untouched E d P dphi.length).map (inPrecision E d'))
          ((untouched E d P dphi.length).map (inPrecision E d'))
          (inPrecision E d' (inPrecision E d denergy)) (inPrecision E d' (inPrecision E d dphi))
          (machineIn E d' (machineIn E d m phi12 hr) phi12 hr) dt r δ nt dphi.length
        pure (untouched E d P dphi.length, untouched E d P dphi.length)) := by
  subst hc
  have hp := passed_rd E d m P dphi denergy h
  simp only [passedArrs, List.mem_cons, List.not_mem_nil, or_false, forall_eq_or_imp, forall_eq] at hp
  obtain ⟨⟨q1, -⟩, ⟨q2, -⟩, -⟩ := hp
  set H := h ++ trackArrs E d m P dphi denergy with hH
  set C := (passedArrs E d m P dphi denergy h.length).map (fun x => convertArr E d' x.2) with hC
  have hlen : H.length = h.length + 11 := by simp [hH, trackArrs]
  have k0 : rd (H ++ C) ((H.length : Int) + 0) = .ok _ := rd_right H C 0
  have k1 : rd (H ++ C) ((H.length : Int) + 1) = .ok _ := rd_right H C 1
  have k2 : rd (H ++ C) ((H.length : Int) + 2) = .ok _ := rd_right H C 2
  have k3 : rd (H ++ C) ((H.length : Int) + 3) = .ok _ := rd_right H C 3
  have k4 : rd (H ++ C) ((H.length : Int) + 4) = .ok _ := rd_right H C 4
  have k5 : rd (H ++ C) ((H.length : Int) + 5) = .ok _ := rd_right H C 5
  have k6 : rd (H ++ C) ((H.length : Int) + 6) = .ok _ := rd_right H C 6
  have k7 : rd (H ++ C) ((H.length : Int) + 7) = .ok _ := rd_right H C 7
  have k8 : rd (H ++ C) ((H.length : Int) + 8) = .ok _ := rd_right H C 8
  have hs := kadArrayBody_spec E k0 k1 k2 k3 k4 k5 k6 k7 k8 (by omega) (by omega) (by omega) (by omega) (by omega)
    (by omega) phi12 hr dt r δ nt dphi.length
  have fl : ∀ v, (convertArr E d' (castNew E d [v])).rows.flatten = inPrecision E d' (inPrecision E d v) := by
    intro v; simp [convertArr, castNew, inPrecision]
  have fz : (convertArr E d' (castNew E d (List.replicate P.toNat (List.replicate dphi.length E.zero)))).rows
      = (untouched E d P dphi.length).map (inPrecision E d') := by
    simp [convertArr, castNew, inPrecision, untouched]
  simp only [fl, fz, Int.toNat_natCast] at hs
  unfold machineIn
  cases hk : Track.kickAndDrift E.sin ((untouched E d P dphi.length).map (inPrecision E d'))
      ((untouched E d P dphi.length).map (inPrecision E d')) (inPrecision E d' (inPrecision E d denergy))
      (inPrecision E d' (inPrecision E d dphi)) ⟨inPrecision E d' (inPrecision E d m.rf1v),
        inPrecision E d' (inPrecision E d m.rf2v), inPrecision E d' (inPrecision E d m.phi0),
        inPrecision E d' (inPrecision E d m.deltaE0), inPrecision E d' (inPrecision E d m.driftCoef), phi12, hr⟩ dt r δ nt
      dphi.length with
  | error f =>
    rw [hk] at hs
    dsimp only at hs
    rw [hs]
    rfl
  | ok s =>
    rw [hk] at hs
    obtain ⟨g, e1, -, -, e4⟩ := hs
    rw [e1]
    have f1 := (e4 ((h.length : Int) + 9) (by omega) (by omega) (by omega) (by omega)).trans (rd_left q1)
    have f2 := (e4 ((h.length : Int) + 10) (by omega) (by omega) (by omega) (by omega)).trans (rd_left q2)
    simp [contents, rowsAt, f1, f2, rows_zero]

/-- **C87 (array `phi12`, double precision)** What `track` returns is the result of the tracking: for a machine whose
`phi12` is an array with one value per turn, every start distribution and every mixture of python number types for the
harmonic ratio, the two arrays a caller gets hold exactly what the tracking of the values in double precision produces, and
the failures are the same. (`Several`: `phi12` has another number of elements than one.) -/
theorem C87_double_array (E : Env α) (m : Track.Mach α) {p : Int} {A : NdArr α} (η : Num α) (P dt rp δ : Int)
    (dphi denergy : List α) (ftn : Bool) (cb : PyVal α) (h : Heap α) (hp : rd h p = .ok A) (hA : A.dtype = .f64)
    (hA' : A.order = .c) (hS : Several A) (hη : IsNum η) :
    contents (Bind.track E .f64 m (.arr p) η P dt rp δ dphi denergy ftn cb h) =
      Track.trackArray E.sin (E.cv .f64 E.zero) (machineIn E .f64 m A.rows.flatten (numVal E .f64 η)) P dt rp δ
        (inPrecision E .f64 dphi) (inPrecision E .f64 denergy) := by
  unfold Track.trackArray
  cases hc : Track.trackCheck P dt rp δ with
  | error e => unfold Bind.track; rw [hc]; rfl
  | ok r =>
    have hp' : rd (h ++ trackArrs E .f64 m P dphi denergy) p = .ok A := rd_left hp
    rw [track_unfold E .f64 m (.arr p) η P dt rp δ dphi denergy ftn cb h hc,
      resolve_double_array E rfl (passed_rd E .f64 m P dphi denergy h) hp' hA hA' hS hη dt r δ (dt * (P - 1)) dphi.length
        ftn cb]
    have := body_inplace E .f64 m P dt r δ (dt * (P - 1)) dphi denergy A.rows.flatten (numVal E .f64 η) h
    simp only [passedArrs, List.map_cons, List.map_nil, List.cons_append, List.nil_append, restVals, kadCall, hp',
      bind_ok, bind_assoc, pure_bind]
    simp only [inPrecision, List.length_map, untouched] at this ⊢
    exact this

/-- **C87 (one number as `phi12`)** The same for a machine with one phase difference for all turns. In double precision any
python numbers will do; in single precision both the phase difference and the harmonic ratio have to be python floats
(or a pybind11 that takes integers for floats). The tracking itself is `Track.track`, which reads one element behind its
table (`C24_violated_scalar`), so what this says about the failures is all there is to say about that case in the model. -/
theorem C87_scalar_partial (E : Env α) {d : DType} (m : Track.Mach α) (φ η : Num α) (P dt rp δ : Int)
    (dphi denergy : List α) (ftn : Bool) (cb : PyVal α) (h : Heap α) (hφ : IsNum φ) (hη : IsNum η)
    (hd : d = .f64 ∨ d = .f32 ∧ (E.intAsFloat = true ∨ ∃ x y, φ = .float x ∧ η = .float y)) :
    contents (Bind.track E d m φ η P dt rp δ dphi denergy ftn cb h) =
      Track.track E.sin (E.cv d E.zero) (machineIn E d m [] (numVal E d η)) (numVal E d φ) P dt rp δ
        (inPrecision E d dphi) (inPrecision E d denergy) := by
  unfold Track.track
  cases hc : Track.trackCheck P dt rp δ with
  | error e => unfold Bind.track; rw [hc]; rfl
  | ok r =>
    have hres : resolve E (h ++ trackArrs E d m P dphi denergy) kadOverloads
        (refs ((passedArrs E d m P dphi denergy h.length).map (·.1)) ++
          tailArgs φ η dt r δ (dt * (P - 1)) dphi.length ftn cb) =
        .ok (h ++ trackArrs E d m P dphi denergy, .scalar d,
          ((passedArrs E d m P dphi denergy h.length).map (·.1)).map .ref ++ .real (numVal E d φ) ::
            .real (numVal E d η) :: restVals dt r δ (dt * (P - 1)) dphi.length ftn cb) := by
      rcases hd with rfl | ⟨rfl, hn⟩
      · exact resolve_double_scalar E rfl (passed_rd E .f64 m P dphi denergy h) hφ hη ..
      · have hv : ∀ v : Num α, IsNum v → (E.intAsFloat = true ∨ ∃ x, v = .float x) →
            loadReal E false .f32 (h ++ trackArrs E .f32 m P dphi denergy) v = some (numVal E .f32 v) := by
          intro v hv hn
          cases v with
          | arr a => exact absurd rfl (hv a)
          | float x => rfl
          | int n =>
            rcases hn with hn | ⟨x, hx⟩
            · simp [loadReal, numVal, hn]
            · cases hx
        refine resolve_scalar E (.inr rfl) rfl (fits_of_list (passed_rd E .f32 m P dphi denergy h)) (hv φ hφ ?_)
          (hv η hη ?_) ..
        · exact hn.imp id fun ⟨x, _, e, _⟩ => ⟨x, e⟩
        · exact hn.imp id fun ⟨_, y, _, e⟩ => ⟨y, e⟩
    rw [track_unfold E d m φ η P dt rp δ dphi denergy ftn cb h hc, hres]
    have := body_inplace E d m P dt r δ (dt * (P - 1)) dphi denergy (List.replicate (dt * (P - 1)).toNat (numVal E d φ))
      (numVal E d η) h
    simp only [passedArrs, List.map_cons, List.map_nil, List.cons_append, List.nil_append, restVals, kadCall,
      bind_ok, bind_assoc, pure_bind]
    simp only [inPrecision, List.length_map, untouched, Track.kickAndDriftScalar, machineIn] at this ⊢
    exact this

/-- **C87 is violated in single precision for an array `phi12`** (every machine with programs: programs_machine.py keeps
`phi12` a `float64` array and tracking.py:207-214 passes it without a cast). No single precision overload takes the call
and the first double precision one that does works on converted copies. The caller's arrays are not among them, and
`track` drops what the compiled function returns (tracking.py:207): whenever the tracking succeeds, the two arrays `track`
returns hold nothing but the zeros they were created with. -/
theorem C87_violated_single_array (E : Env α) (m : Track.Mach α) {p : Int} {A : NdArr α} (η : Num α) (P dt rp δ : Int)
    (dphi denergy : List α) (ftn : Bool) (cb : PyVal α) (h : Heap α) (hp : rd h p = .ok A) (hA : A.dtype = .f64)
    (hA' : A.order = .c) (hS : Several A) (hη : IsNum η) (hz : E.cv .f64 (E.cv .f32 E.zero) = E.cv .f32 E.zero) :
    contents (Bind.track E .f32 m (.arr p) η P dt rp δ dphi denergy ftn cb h) =
      (Track.trackArray E.sin (E.cv .f32 E.zero)
        (machineIn E .f64 (machineIn E .f32 m A.rows.flatten (numVal E .f64 η)) A.rows.flatten (numVal E .f64 η))
        P dt rp δ (inPrecision E .f64 (inPrecision E .f32 dphi)) (inPrecision E .f64 (inPrecision E .f32 denergy))).map
        fun _ => (untouched E .f32 P dphi.length, untouched E .f32 P dphi.length) := by
  unfold Track.trackArray
  cases hc : Track.trackCheck P dt rp δ with
  | error e => unfold Bind.track; rw [hc]; rfl
  | ok r =>
    have hp' : rd (h ++ trackArrs E .f32 m P dphi denergy) p = .ok A := rd_left hp
    rw [track_unfold E .f32 m (.arr p) η P dt rp δ dphi denergy ftn cb h hc,
      resolve_single_array E rfl (passed_rd E .f32 m P dphi denergy h) hp' hA hA' hS hη dt r δ (dt * (P - 1)) dphi.length
        ftn cb]
    have := body_copies E .f32 .f64 m P dt r δ (dt * (P - 1)) dphi denergy A.rows.flatten (numVal E .f64 η) h _ rfl
    have hp'' : rd (h ++ trackArrs E .f32 m P dphi denergy ++
        List.map (fun x => convertArr E .f64 x.2) (passedArrs E .f32 m P dphi denergy h.length)) p = .ok A :=
      rd_left hp'
    have hu : ∀ n, (untouched E .f32 P n).map (inPrecision E .f64)
        = List.replicate P.toNat (List.replicate n (E.cv .f32 E.zero)) := by
      intro n; simp [untouched, inPrecision, hz]
    rw [hu] at this
    have hr9 : (List.range 9) = [0, 1, 2, 3, 4, 5, 6, 7, 8] := rfl
    simp only [hr9, List.map_cons, List.map_nil, List.cons_append, List.nil_append, restVals, kadCall,
      bind_ok, bind_assoc, pure_bind, hp'', Nat.cast_ofNat, Nat.cast_zero, Nat.cast_one] at this ⊢
    simp only [inPrecision, List.length_map] at this ⊢
    rw [this]
    cases Track.kickAndDrift E.sin _ _ _ _ _ _ _ _ _ _ <;> rfl

/-- **C87 is violated in single precision for integers** with a pybind11 that does not take a python `int` for a `float`
parameter: a phase difference or harmonic ratio given as an `int` (such as the `h_ratio = 1` of programs_machine.py:165) sends
the call to the double precision routine, on copies. The returned arrays hold nothing but zeros whenever the tracking
succeeds. -/
theorem C87_violated_single_int (E : Env α) (hE : E.intAsFloat = false) (m : Track.Mach α) (φ η : Num α)
    (P dt rp δ : Int) (dphi denergy : List α) (ftn : Bool) (cb : PyVal α) (h : Heap α) (hφ : IsNum φ) (hη : IsNum η)
    (hi : (∃ n, φ = .int n) ∨ ∃ n, η = .int n) (hz : E.cv .f64 (E.cv .f32 E.zero) = E.cv .f32 E.zero) :
    contents (Bind.track E .f32 m φ η P dt rp δ dphi denergy ftn cb h) =
      (Track.track E.sin (E.cv .f32 E.zero)
        (machineIn E .f64 (machineIn E .f32 m [] (numVal E .f64 η)) [] (numVal E .f64 η)) (numVal E .f64 φ)
        P dt rp δ (inPrecision E .f64 (inPrecision E .f32 dphi)) (inPrecision E .f64 (inPrecision E .f32 denergy))).map
        fun _ => (untouched E .f32 P dphi.length, untouched E .f32 P dphi.length) := by
  unfold Track.track
  cases hc : Track.trackCheck P dt rp δ with
  | error e => unfold Bind.track; rw [hc]; rfl
  | ok r =>
    rw [track_unfold E .f32 m φ η P dt rp δ dphi denergy ftn cb h hc,
      resolve_single_int E hE rfl (passed_rd E .f32 m P dphi denergy h) hφ hη hi dt r δ (dt * (P - 1)) dphi.length ftn cb]
    have := body_copies E .f32 .f64 m P dt r δ (dt * (P - 1)) dphi denergy
      (List.replicate (dt * (P - 1)).toNat (numVal E .f64 φ)) (numVal E .f64 η) h _ rfl
    have hu : ∀ n, (untouched E .f32 P n).map (inPrecision E .f64)
        = List.replicate P.toNat (List.replicate n (E.cv .f32 E.zero)) := by
      intro n; simp [untouched, inPrecision, hz]
    rw [hu] at this
    have hr9 : (List.range 9) = [0, 1, 2, 3, 4, 5, 6, 7, 8] := rfl
    simp only [hr9, List.map_cons, List.map_nil, List.cons_append, List.nil_append, restVals, kadCall,
      bind_ok, bind_assoc, pure_bind, Nat.cast_ofNat, Nat.cast_zero, Nat.cast_one] at this ⊢
    simp only [inPrecision, List.length_map, Track.kickAndDriftScalar, machineIn] at this ⊢
    rw [this]
    cases Track.kickAndDrift E.sin _ _ _ _ _ _ _ _ _ _ <;> rfl

/-- a sample world: single precision keeps multiples of 1/8 -/
def envQ : Env ℚ := ⟨id, 0, fun d x => if d = .f32 then (⌊x * 8⌋ : ℚ) / 8 else x, fun n => n, false⟩

/-- the same call in double precision gives the tracked coordinates -/
example : contents (Bind.track envQ .f64 driftMach (.arr 0) (.int 1) 2 2 0 0 [0, 1/2] [1, 3] false .none
    [⟨.f64, .c, [[0, 0, 0]]⟩]) = .ok ([[0, 1/2], [-2, -11/2]], [[1, 3], [1, 3]]) := by decide +kernel

example : contents (Bind.track envQ .f64 driftMach (.arr 0) (.int 1) 2 2 0 0 [0, 1/2] [1, 3] false .none
    [⟨.f64, .c, [[0, 0, 0]]⟩]) =
      Track.trackArray envQ.sin 0 (machineIn envQ .f64 driftMach [0, 0, 0] 1) 2 2 0 0 [0, 1/2] [1, 3] := by
  refine (C87_double_array envQ driftMach (A := ⟨.f64, .c, [[0, 0, 0]]⟩) _ 2 2 0 0 _ _ _ _ _ rfl rfl rfl ?_ ?_).trans ?_
  · intro x hx; simp at hx
  · intro a ha; cases ha
  · decide +kernel

/-- in single precision it gives zeros, without an error -/
theorem C87_violated_single_witness :
    contents (Bind.track envQ .f32 driftMach (.arr 0) (.int 1) 2 2 0 0 [0, 1/2] [1, 3] false .none
      [⟨.f64, .c, [[0, 0, 0]]⟩]) = .ok ([[0, 0], [0, 0]], [[0, 0], [0, 0]]) := by decide +kernel

example : IsNum (.float (1 : ℚ)) ∧ IsNum (.int 1 : Num ℚ) := ⟨(fun _ h => by cases h), (fun _ h => by cases h)⟩

/-- which overload is taken for one phase difference: the arrays themselves with floats, copies (behind the eleven arrays of
`track`) with an integer ratio -/
example :
    (resolve envQ (trackArrs envQ .f32 driftMach 2 [0] [1]) kadOverloads
      (refs ((passedArrs envQ .f32 driftMach 2 [0] [1] 0).map (·.1)) ++ tailArgs (.float 1) (.float 1) 2 0 0 2 1 false .none)).map
      (fun r => (r.2.1, r.2.2.take 2)) = .ok (.scalar .f32, [.ref 9, .ref 10]) ∧
    (resolve envQ (trackArrs envQ .f32 driftMach 2 [0] [1]) kadOverloads
      (refs ((passedArrs envQ .f32 driftMach 2 [0] [1] 0).map (·.1)) ++ tailArgs (.float 1) (.int 1) 2 0 0 2 1 false .none)).map
      (fun r => (r.2.1, r.2.2.take 2)) = .ok (.scalar .f64, [.ref 11, .ref 12]) := by decide +kernel

/-! ## C88 -/

/-- **C88 (kick)** `libtomo.kick` gives the energies after the kick of the given turn, whatever the element types and memory
orders of the arrays it is given (values of all of them are exact in double precision: `hcv`); the failures are those of
reading a turn or a particle that is not there. The caller's array of energies is the one returned exactly if it is a
`float64` array in C order, and no other array of the caller changes. -/
theorem C88_kick (E : Env α) (hcv : ∀ x, E.cv .f64 x = x) (h : Heap α) (m : MachObj α) {de dp r1 r2 : Int}
    {De Dp R1 R2 F0 DE : NdArr α} (hde : rd h de = .ok De) (hdp : rd h dp = .ok Dp) (hr1 : rd h r1 = .ok R1)
    (hr2 : rd h r2 = .ok R2) (hf0 : rd h m.phi0 = .ok F0) (hdE : rd h m.deltaE0 = .ok DE) (hx : IsNum m.phi12)
    (hη : IsNum m.hratio) (n : ℕ) (turn : Int) (up : Bool) :
    match kickOnce E.sin up Dp.rows.flatten De.rows.flatten R1.rows.flatten R2.rows.flatten F0.rows.flatten
        DE.rows.flatten (numVal E .f64 m.phi12) (numVal E .f64 m.hratio) n turn with
    | .error f => kickCall E h [.machine m, .num (.arr de), .num (.arr dp), .num (.arr r1), .num (.arr r2),
        .num (.int n), .num (.int turn), .bool up] = .error f
    | .ok v => ∃ h' r, kickCall E h [.machine m, .num (.arr de), .num (.arr dp), .num (.arr r1), .num (.arr r2),
        .num (.int n), .num (.int turn), .bool up] = .ok (h', r) ∧ Returned h h' de r De v := by
  obtain ⟨e1, de', De', l1, -, q1, v1, t1, o1, c1⟩ := load_arr E hcv hde
  obtain ⟨e2, dp', Dp', l2, -, q2, v2, -⟩ := load_arr E hcv (rd_left hdp (r := e1))
  obtain ⟨e3, r1', R1', l3, -, q3, v3, -⟩ := load_arr E hcv (rd_left (rd_left hr1 (r := e1)) (r := e2))
  obtain ⟨e4, r2', R2', l4, -, q4, v4, -⟩ :=
    load_arr E hcv (rd_left (rd_left (rd_left hr2 (r := e1)) (r := e2)) (r := e3))
  obtain ⟨e5, p0', F0', a5, q5, v5⟩ :=
    attr_arr E hcv (rd_left (rd_left (rd_left (rd_left hf0 (r := e1)) (r := e2)) (r := e3)) (r := e4))
  obtain ⟨e6, dE', DE', a6, q6, v6⟩ :=
    attr_arr E hcv (rd_left (rd_left (rd_left (rd_left (rd_left hdE (r := e1)) (r := e2)) (r := e3)) (r := e4)) (r := e5))
  have hres : resolve E h [kickOverload] [.machine m, .num (.arr de), .num (.arr dp), .num (.arr r1), .num (.arr r2),
        .num (.int n), .num (.int turn), .bool up] = .ok (h ++ e1 ++ e2 ++ e3 ++ e4, (), [.obj (.machine m), .ref de',
          .ref dp', .ref r1', .ref r2', .int n, .int turn, .bool up]) := by
    have l0 : load E true h .obj (.machine m) = some (h, .obj (.machine m)) := rfl
    have l5 : ∀ H, load E true H .int (.num (.int n)) = some (H, .int n) := fun _ => rfl
    have l6 : ∀ H, load E true H .int (.num (.int turn)) = some (H, .int turn) := fun _ => rfl
    have l7 : ∀ H, load E true H .bool (.bool up) = some (H, .bool up) := fun _ => rfl
    simp [-List.append_assoc, resolve, firstOverload, tryOverload, kickOverload, loadAll, l0, l1, l2, l3, l4, l5, l6, l7]
  have Q1 := rd_left (rd_left (rd_left (rd_left (rd_left q1 (r := e2)) (r := e3)) (r := e4)) (r := e5)) (r := e6)
  have Q2 := rd_left (rd_left (rd_left (rd_left q2 (r := e3)) (r := e4)) (r := e5)) (r := e6)
  have Q3 := rd_left (rd_left (rd_left q3 (r := e4)) (r := e5)) (r := e6)
  have Q4 := rd_left (rd_left q4 (r := e5)) (r := e6)
  have Q5 := rd_left q5 (r := e6)
  unfold kickCall
  rw [hres]
  simp only [bind_ok, a5, attr_float E _ hx, attr_float E _ hη, a6, Q3, Q4, Q5, q6, v1, v2, v3, v4, v5, v6, Q1, Q2,
    kickOnce, Int.toNat_natCast]
  cases rd R1.rows.flatten turn with
  | error f => rfl
  | ok w1 =>
  cases rd R2.rows.flatten turn with
  | error f => rfl
  | ok w2 =>
  cases rd F0.rows.flatten turn with
  | error f => rfl
  | ok w3 =>
  cases rd DE.rows.flatten turn with
  | error f => rfl
  | ok w4 =>
  simp only [bind_ok]
  cases hk : (if up = true then Track.kickUp E.sin Dp.rows.flatten De.rows.flatten w1 w2 w3 (numVal E .f64 m.phi12)
      (numVal E .f64 m.hratio) n w4 else Track.kickDown E.sin Dp.rows.flatten De.rows.flatten w1 w2 w3
      (numVal E .f64 m.phi12) (numVal E .f64 m.hratio) n w4) with
  | error f => cases up <;> simp_all
  | ok v =>
    obtain ⟨h', u1, -, u3, u4⟩ := upd_spec (w := { De' with rows := [v] }) Q1
    refine ⟨h', de', ?_, ⟨_, u3, rfl, t1, o1⟩, ?_, ?_, ?_⟩
    · cases up <;> simp_all
    · rcases c1 with ⟨x1, x2, x3⟩ | ⟨x1, x2⟩
      · simp [Direct, x1, x2, x3]
      · have := (rd_lt hde).2
        constructor
        · intro e; omega
        · intro e; exact absurd e x1
    · intro hD
      rcases c1 with ⟨x1, x2, -⟩ | ⟨-, x2⟩
      · exact absurd ⟨x1, x2⟩ hD
      · exact x2
    · intro b C hb hne
      rw [u4 b hne]
      exact rd_left (rd_left (rd_left (rd_left (rd_left (rd_left hb)))))

/-- **C88 (drift)** `libtomo.drift` gives the phases after the drift of the given turn, in the same way. -/
theorem C88_drift (E : Env α) (hcv : ∀ x, E.cv .f64 x = x) (h : Heap α) {de dp dc : Int} {De Dp DC : NdArr α}
    (hde : rd h de = .ok De) (hdp : rd h dp = .ok Dp) (hdc : rd h dc = .ok DC) (n : ℕ) (turn : Int) (up : Bool) :
    match driftOnce up Dp.rows.flatten De.rows.flatten DC.rows.flatten n turn with
    | .error f => driftCall E h [.num (.arr de), .num (.arr dp), .num (.arr dc), .num (.int n), .num (.int turn),
        .bool up] = .error f
    | .ok v => ∃ h' r, driftCall E h [.num (.arr de), .num (.arr dp), .num (.arr dc), .num (.int n), .num (.int turn),
        .bool up] = .ok (h', r) ∧ Returned h h' dp r Dp v := by
  obtain ⟨e1, de', De', l1, -, q1, v1, -⟩ := load_arr E hcv hde
  obtain ⟨e2, dp', Dp', l2, -, q2, v2, t2, o2, c2⟩ := load_arr E hcv (rd_left hdp (r := e1))
  obtain ⟨e3, dc', DC', l3, -, q3, v3, -⟩ := load_arr E hcv (rd_left (rd_left hdc (r := e1)) (r := e2))
  have hres : resolve E h [driftOverload] [.num (.arr de), .num (.arr dp), .num (.arr dc),
        .num (.int n), .num (.int turn), .bool up] = .ok (h ++ e1 ++ e2 ++ e3, (), [.ref de',
          .ref dp', .ref dc', .int n, .int turn, .bool up]) := by
    have l5 : ∀ H, load E true H .int (.num (.int n)) = some (H, .int n) := fun _ => rfl
    have l6 : ∀ H, load E true H .int (.num (.int turn)) = some (H, .int turn) := fun _ => rfl
    have l7 : ∀ H, load E true H .bool (.bool up) = some (H, .bool up) := fun _ => rfl
    simp [-List.append_assoc, resolve, firstOverload, tryOverload, driftOverload, loadAll, l1, l2, l3, l5, l6, l7]
  have Q1 := rd_left (rd_left q1 (r := e2)) (r := e3)
  have Q2 := rd_left q2 (r := e3)
  unfold driftCall
  rw [hres]
  simp only [bind_ok, q3, v1, v2, v3, Q1, Q2, driftOnce, Int.toNat_natCast]
  cases rd DC.rows.flatten turn with
  | error f => rfl
  | ok w1 =>
  simp only [bind_ok]
  cases hk : (if up = true then Track.driftUp Dp.rows.flatten De.rows.flatten w1 n
      else Track.driftDown Dp.rows.flatten De.rows.flatten w1 n) with
  | error f => cases up <;> simp_all
  | ok v =>
    obtain ⟨h', u1, -, u3, u4⟩ := upd_spec (w := { Dp' with rows := [v] }) Q2
    refine ⟨h', dp', ?_, ⟨_, u3, rfl, t2, o2⟩, ?_, ?_, ?_⟩
    · cases up <;> simp_all
    · rcases c2 with ⟨x1, x2, x3⟩ | ⟨x1, x2⟩
      · simp [Direct, x1, x2, x3]
      · have := (rd_lt hdp).2
        rw [List.length_append] at x2
        constructor
        · intro e; omega
        · intro e; exact absurd e x1
    · intro hD
      rcases c2 with ⟨x1, x2, -⟩ | ⟨-, x2⟩
      · exact absurd ⟨x1, x2⟩ hD
      · rw [List.length_append] at x2; omega
    · intro b C hb hne
      rw [u4 b hne]
      exact rd_left (rd_left (rd_left hb))

/-- **C88 is violated for machines with programs**: `libtomo.kick` reads `machine.phi12` as one number (libtomo.cpp:93), so it
raises `TypeError` for every machine whose `phi12` is an array with more than one value, and with it every tracking in python
steps (tracking.py:216-307 `kick_and_drift`, 300-440 `kick_and_drift_self`). -/
theorem C88_violated_program_kick (E : Env α) (hcv : ∀ x, E.cv .f64 x = x) (h : Heap α) (m : MachObj α)
    {de dp r1 r2 p : Int} {De Dp R1 R2 F0 A : NdArr α} (hde : rd h de = .ok De) (hdp : rd h dp = .ok Dp)
    (hr1 : rd h r1 = .ok R1) (hr2 : rd h r2 = .ok R2) (hf0 : rd h m.phi0 = .ok F0)
    (hp : rd h p = .ok A) (hm : m.phi12 = .arr p) (hS : Several A) (n turn : Int) (up : Bool) :
    kickCall E h [.machine m, .num (.arr de), .num (.arr dp), .num (.arr r1), .num (.arr r2),
        .num (.int n), .num (.int turn), .bool up] = .error (.exc .typeError) := by
  obtain ⟨e1, de', De', l1, -, q1, v1, t1, o1, c1⟩ := load_arr E hcv hde
  obtain ⟨e2, dp', Dp', l2, -, q2, v2, -⟩ := load_arr E hcv (rd_left hdp (r := e1))
  obtain ⟨e3, r1', R1', l3, -, q3, v3, -⟩ := load_arr E hcv (rd_left (rd_left hr1 (r := e1)) (r := e2))
  obtain ⟨e4, r2', R2', l4, -, q4, v4, -⟩ :=
    load_arr E hcv (rd_left (rd_left (rd_left hr2 (r := e1)) (r := e2)) (r := e3))
  obtain ⟨e5, p0', F0', a5, q5, v5⟩ :=
    attr_arr E hcv (rd_left (rd_left (rd_left (rd_left hf0 (r := e1)) (r := e2)) (r := e3)) (r := e4))
  have hres : resolve E h [kickOverload] [.machine m, .num (.arr de), .num (.arr dp), .num (.arr r1), .num (.arr r2),
        .num (.int n), .num (.int turn), .bool up] = .ok (h ++ e1 ++ e2 ++ e3 ++ e4, (), [.obj (.machine m), .ref de',
          .ref dp', .ref r1', .ref r2', .int n, .int turn, .bool up]) := by
    have l0 : load E true h .obj (.machine m) = some (h, .obj (.machine m)) := rfl
    have l5 : ∀ H, load E true H .int (.num (.int n)) = some (H, .int n) := fun _ => rfl
    have l6 : ∀ H, load E true H .int (.num (.int turn)) = some (H, .int turn) := fun _ => rfl
    have l7 : ∀ H, load E true H .bool (.bool up) = some (H, .bool up) := fun _ => rfl
    simp [-List.append_assoc, resolve, firstOverload, tryOverload, kickOverload, loadAll, l0, l1, l2, l3, l4, l5, l6, l7]
  have ha : ∀ H, rd H p = .ok A → attrFloat E H m.phi12 = .error (.exc .typeError) := by
    intro H hH
    unfold attrFloat
    rw [hm, loadReal_several E true .f64 hH hS]
  unfold kickCall
  rw [hres]
  simp only [bind_ok, a5, ha _ (rd_left (rd_left (rd_left (rd_left (rd_left hp)))))]
  rfl

/-- **C88 (steps without a return value)** `drift_up`, `drift_down`: on a `float64` array of phases in C order the drift is
applied in place. -/
theorem C88_step_partial (E : Env α) (hcv : ∀ x, E.cv .f64 x = x) (h : Heap α) {de dp : Int} {De Dp : NdArr α}
    (hde : rd h de = .ok De) (hdp : rd h dp = .ok Dp) (c : α) (n : ℕ) (up : Bool) (hD : Direct Dp) {v : List α}
    (hv : (if up then Track.driftUp Dp.rows.flatten De.rows.flatten c n
      else Track.driftDown Dp.rows.flatten De.rows.flatten c n) = .ok v) :
    ∃ h', driftStepCall E up h [.num (.arr dp), .num (.arr de), .num (.float c), .num (.int n)] = .ok h' ∧
      Returned h h' dp dp Dp v := by
  obtain ⟨e1, dp', Dp', l1, -, q1, v1, t1, o1, c1⟩ := load_arr E hcv hdp
  obtain ⟨e2, de', De', l2, -, q2, v2, -⟩ := load_arr E hcv (rd_left hde (r := e1))
  have hres : resolve E h [driftStepOverload] [.num (.arr dp), .num (.arr de), .num (.float c), .num (.int n)] =
      .ok (h ++ e1 ++ e2, (), [.ref dp', .ref de', .real c, .int n]) := by
    have l5 : ∀ H, load E true H .int (.num (.int n)) = some (H, .int n) := fun _ => rfl
    have l6 : ∀ H, load E true H (.real .f64) (.num (.float c)) = some (H, .real c) := by
      intro H; simp [load, loadReal, hcv]
    simp [-List.append_assoc, resolve, firstOverload, tryOverload, driftStepOverload, loadAll, l1, l2, l5, l6]
  have Q1 := rd_left q1 (r := e2)
  have hd : dp' = dp := by
    rcases c1 with ⟨-, -, x⟩ | ⟨x, -⟩
    · exact x
    · exact absurd hD x
  obtain ⟨h', u1, -, u3, u4⟩ := upd_spec (w := { Dp' with rows := [v] }) Q1
  refine ⟨h', ?_, ⟨{ Dp' with rows := [v] }, hd ▸ u3, rfl, t1, o1⟩, by simp [hD], fun e => absurd hD e, ?_⟩
  · unfold driftStepCall
    rw [hres]
    cases up <;> simp_all
  · intro b C hb hne
    rw [u4 b (by rw [hd]; exact hne)]
    exact rd_left (rd_left hb)

/-- **C88 is violated by the steps without a return value** (libtomo.cpp:42-79, 113-140: `kick_up`, `kick_down`, `drift_up`,
`drift_down` work in place and return nothing): on any array of phases that is not `float64` in C order the call succeeds and
changes none of the caller's arrays, the step is lost. -/
theorem C88_violated_lost_step (E : Env α) (hcv : ∀ x, E.cv .f64 x = x) (h : Heap α) {de dp : Int} {De Dp : NdArr α}
    (hde : rd h de = .ok De) (hdp : rd h dp = .ok Dp) (c : α) (n : ℕ) (up : Bool) (hD : ¬ Direct Dp) {v : List α}
    (hv : (if up then Track.driftUp Dp.rows.flatten De.rows.flatten c n
      else Track.driftDown Dp.rows.flatten De.rows.flatten c n) = .ok v) :
    ∃ h', driftStepCall E up h [.num (.arr dp), .num (.arr de), .num (.float c), .num (.int n)] = .ok h' ∧
      ∀ b C, rd h b = .ok C → rd h' b = .ok C := by
  obtain ⟨e1, dp', Dp', l1, -, q1, v1, t1, o1, c1⟩ := load_arr E hcv hdp
  obtain ⟨e2, de', De', l2, -, q2, v2, -⟩ := load_arr E hcv (rd_left hde (r := e1))
  have hres : resolve E h [driftStepOverload] [.num (.arr dp), .num (.arr de), .num (.float c), .num (.int n)] =
      .ok (h ++ e1 ++ e2, (), [.ref dp', .ref de', .real c, .int n]) := by
    have l5 : ∀ H, load E true H .int (.num (.int n)) = some (H, .int n) := fun _ => rfl
    have l6 : ∀ H, load E true H (.real .f64) (.num (.float c)) = some (H, .real c) := by
      intro H; simp [load, loadReal, hcv]
    simp [-List.append_assoc, resolve, firstOverload, tryOverload, driftStepOverload, loadAll, l1, l2, l5, l6]
  have Q1 := rd_left q1 (r := e2)
  have hd : (h.length : Int) ≤ dp' := by
    rcases c1 with ⟨x, y, -⟩ | ⟨-, x⟩
    · exact absurd ⟨x, y⟩ hD
    · exact x
  obtain ⟨h', u1, -, u3, u4⟩ := upd_spec (w := { Dp' with rows := [v] }) Q1
  refine ⟨h', ?_, ?_⟩
  · unfold driftStepCall
    rw [hres]
    cases up <;> simp_all
  · intro b C hb
    have := (rd_lt hb).2
    rw [u4 b (by omega)]
    exact rd_left (rd_left hb)

/-- **C88 (kicks without a return value)** `kick_up`, `kick_down` apply the kick in place to a `float64` array of energies in C
order; on any other array the call succeeds and no array of the caller changes. -/
theorem C88_kick_step_partial (E : Env α) (hcv : ∀ x, E.cv .f64 x = x) (h : Heap α) {de dp : Int} {De Dp : NdArr α}
    (hde : rd h de = .ok De) (hdp : rd h dp = .ok Dp) (v1 v2 f0 x hr acc : α) (n : ℕ) (up : Bool) {v : List α}
    (hv : (if up then Track.kickUp E.sin Dp.rows.flatten De.rows.flatten v1 v2 f0 x hr n acc
      else Track.kickDown E.sin Dp.rows.flatten De.rows.flatten v1 v2 f0 x hr n acc) = .ok v) :
    ∃ h', kickStepCall E up h [.num (.arr dp), .num (.arr de), .num (.float v1), .num (.float v2), .num (.float f0),
        .num (.float x), .num (.float hr), .num (.int n), .num (.float acc)] = .ok h' ∧
      (Direct De → Returned h h' de de De v) ∧ (¬ Direct De → ∀ b C, rd h b = .ok C → rd h' b = .ok C) := by
  obtain ⟨e1, dp', Dp', l1, -, q1, w1, -⟩ := load_arr E hcv hdp
  obtain ⟨e2, de', De', l2, -, q2, w2, t2, o2, c2⟩ := load_arr E hcv (rd_left hde (r := e1))
  have hres : resolve E h [kickStepOverload] [.num (.arr dp), .num (.arr de), .num (.float v1), .num (.float v2),
        .num (.float f0), .num (.float x), .num (.float hr), .num (.int n), .num (.float acc)] =
      .ok (h ++ e1 ++ e2, (), [.ref dp', .ref de', .real v1, .real v2, .real f0, .real x, .real hr, .int n, .real acc]) := by
    have l5 : ∀ H, load E true H .int (.num (.int n)) = some (H, .int n) := fun _ => rfl
    have l6 : ∀ H c, load E true H (.real .f64) (.num (.float c)) = some (H, .real c) := by
      intro H c; simp [load, loadReal, hcv]
    simp [-List.append_assoc, resolve, firstOverload, tryOverload, kickStepOverload, loadAll, l1, l2, l5, l6]
  have Q1 := rd_left q1 (r := e2)
  obtain ⟨h', u1, -, u3, u4⟩ := upd_spec (w := { De' with rows := [v] }) q2
  refine ⟨h', ?_, ?_, ?_⟩
  · unfold kickStepCall
    rw [hres]
    cases up <;> simp_all
  · intro hD
    have hd : de' = de := by
      rcases c2 with ⟨-, -, y⟩ | ⟨y, -⟩
      · exact y
      · exact absurd hD y
    refine ⟨⟨{ De' with rows := [v] }, hd ▸ u3, rfl, t2, o2⟩, by simp [hD], fun e => absurd hD e, ?_⟩
    intro b C hb hne
    rw [u4 b (by rw [hd]; exact hne)]
    exact rd_left (rd_left hb)
  · intro hD b C hb
    have hd : (h.length : Int) ≤ de' := by
      rcases c2 with ⟨y, z, -⟩ | ⟨-, y⟩
      · exact absurd ⟨y, z⟩ hD
      · rw [List.length_append] at y; omega
    have := (rd_lt hb).2
    rw [u4 b (by omega)]
    exact rd_left (rd_left hb)

/-- sample machine: tables at the addresses 4, 5, 6 -/
def sampleObj (φ : Num ℚ) : MachObj ℚ := ⟨4, 5, 6, φ, .int 1, 2⟩

def sampleHeap (d : DType) : Heap ℚ :=
  [⟨d, .c, [[1, 2]]⟩, ⟨d, .c, [[3, 4]]⟩, ⟨.f64, .c, [[1, 1, 1]]⟩, ⟨.f64, .c, [[0, 0, 0]]⟩, ⟨.f64, .c, [[0, 0, 0]]⟩,
    ⟨.f64, .c, [[1, 1, 1]]⟩, ⟨.f64, .c, [[1, 1, 1]]⟩]

/-- a kick of a `float64` array in place, of a `float32` array in a new one; both with the same values -/
example : kickCall envQ (sampleHeap .f64) [.machine (sampleObj (.float 0)), .num (.arr 0), .num (.arr 1), .num (.arr 2),
      .num (.arr 3), .num (.int 2), .num (.int 1), .bool true] =
        .ok ((sampleHeap .f64).set 0 ⟨.f64, .c, [[3, 5]]⟩, 0) ∧
    (kickCall envQ (sampleHeap .f32) [.machine (sampleObj (.float 0)), .num (.arr 0), .num (.arr 1), .num (.arr 2),
      .num (.arr 3), .num (.int 2), .num (.int 1), .bool true]) =
        .ok (sampleHeap .f32 ++ [⟨.f64, .c, [[3, 5]]⟩, ⟨.f64, .c, [[3, 4]]⟩], 7) := by decide +kernel

/-- the same machine with an array `phi12` -/
example : kickCall envQ (sampleHeap .f64) [.machine (sampleObj (.arr 3)), .num (.arr 0), .num (.arr 1), .num (.arr 2),
      .num (.arr 3), .num (.int 2), .num (.int 1), .bool true] = .error (.exc .typeError) := by decide +kernel

/-- a drift of `float32` phases is lost -/
example : driftStepCall envQ true (sampleHeap .f64) [.num (.arr 1), .num (.arr 0), .num (.float 1), .num (.int 2)] =
      .ok ((sampleHeap .f64).set 1 ⟨.f64, .c, [[2, 2]]⟩) ∧
    (driftStepCall envQ true (sampleHeap .f32) [.num (.arr 1), .num (.arr 0), .num (.float 1), .num (.int 2)]).map
      (·.take 7) = .ok (sampleHeap .f32) := by decide +kernel

/-! ## C89 -/

theorem resolve_two (E : Env α) (h : Heap α) (o1 o2 : Overload DType α) (args : List (PyVal α)) :
    resolve E h [o1, o2] args =
      match tryOverload E false h o1 args, tryOverload E false h o2 args, tryOverload E true h o1 args,
        tryOverload E true h o2 args with
      | some r, _, _, _ => .ok r
      | none, some r, _, _ => .ok r
      | none, none, some r, _ => .ok r
      | none, none, none, some r => .ok r
      | none, none, none, none => .error (.exc .typeError) := by
  simp only [resolve, firstOverload, List.length_cons, List.length_nil]
  rw [if_pos (by omega)]
  cases tryOverload E false h o1 args <;> cases tryOverload E false h o2 args <;>
    cases tryOverload E true h o1 args <;> cases tryOverload E true h o2 args <;> rfl

/-- **C89 (reconstruction)** In either precision a reconstruction computes in, and returns its results in, the precision set
in the configuration, for a waterfall array in C order (or strided), any tracked points, sizes and options. -/
theorem C89_run_partial (E : Env α) {prec : DType} (hd : prec = .f64 ∨ prec = .f32) (wf : NdArr α)
    (wfv xpv : List (List α)) (niter nbins nparts nprofs : Int) (verbose : Bool) (cb : PyVal α) (ho : wf.order ≠ .f) :
    runDtype E prec wf wfv xpv niter nbins nparts nprofs verbose cb = .ok prec := by
  have hk : keepOrder wf.order = .c := by
    cases hw : wf.order with
    | f => exact absurd hw ho
    | c => rfl
    | strided => rfl
  unfold runDtype reconstructOverloads
  rw [resolve_two]
  rcases hd with rfl | rfl <;>
    simp [tryOverload, reconstructOverload, loadAll, load, loadArr, storedXp, storedWaterfall, hk, rd]

/-- **C89 is violated for a waterfall in Fortran order** (for instance the transpose of a C-ordered array): the cast keeps the
memory order (`np.array(arr, dtype=...)`, tomo_config.py:212-226), no overload takes it without a conversion, and the first one
that does is the double precision one: in single precision the reconstruction runs and returns in double precision. -/
theorem C89_violated_fortran (E : Env α) (wf : NdArr α) (wfv xpv : List (List α)) (niter nbins nparts nprofs : Int)
    (verbose : Bool) (cb : PyVal α) (ho : wf.order = .f) :
    runDtype E .f32 wf wfv xpv niter nbins nparts nprofs verbose cb = .ok .f64 := by
  unfold runDtype reconstructOverloads
  rw [resolve_two]
  simp [tryOverload, reconstructOverload, loadAll, load, loadArr, storedXp, storedWaterfall, ho, keepOrder, rd]

/-- **C89 (image)** The image of `create_phase_space_image` has the precision of the weights. -/
theorem C89_image (E : Env α) {w : DType} (hd : w = .f64 ∨ w = .f32) (xv yv wv : List α) (nbins : Int) :
    imageDtype E w xv yv wv nbins = .ok w := by
  unfold imageDtype phaseSpaceOverloads
  rw [resolve_two]
  rcases hd with rfl | rfl <;> simp [tryOverload, phaseSpaceOverload, loadAll, load, loadArr, rd]

/-- **C89 is violated by `phase_space`** (data_treatment.py:155-160): it passes columns `xp[:, i]`, which are not contiguous,
so the call needs a conversion and goes to the double precision routine: in single precision the density comes in double
precision, unlike the image of the same data (`C89_image`). -/
theorem C89_violated_phase_space (E : Env α) (xp yp : NdArr α) (xv yv wv : List α) (nbins : Int)
    (ho : xp.order ≠ .f) : phaseSpaceDtype E xp yp .f32 xv yv wv nbins = .ok .f64 := by
  have hk : (column xp xv).order ≠ .c := by
    cases hw : xp.order with
    | f => exact absurd hw ho
    | c => simp [column, hw]
    | strided => simp [column, hw]
  unfold phaseSpaceDtype phaseSpaceOverloads
  rw [resolve_two]
  by_cases hy : (column yp yv).dtype = .i32 ∧ (column yp yv).order = .c <;>
    simp [tryOverload, phaseSpaceOverload, loadAll, load, loadArr, hk, hy, rd]

example : runDtype envQ .f32 ⟨.f64, .c, [[1, 2]]⟩ [[1, 2]] [[0], [1]] 3 2 2 1 false .none = .ok .f32 ∧
    runDtype envQ .f32 ⟨.f64, .f, [[1, 2]]⟩ [[1, 2]] [[0], [1]] 3 2 2 1 false .none = .ok .f64 ∧
    phaseSpaceDtype envQ ⟨.i32, .c, [[0], [1]]⟩ ⟨.i32, .c, [[0], [1]]⟩ .f32 [0, 1] [0, 1] [1, 1] 2 = .ok .f64 ∧
    imageDtype envQ .f32 [0, 1] [0, 1] [1, 1] 2 = .ok .f32 := by decide +kernel

end
end Verif.Props
