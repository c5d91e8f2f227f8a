import Verif.Lemmas.CudaArgs
import Verif.Props.CudaTrack

/-!
# C112 — the kernels on the GPU work with the numbers the caller passes
-/

set_option linter.unusedSectionVars false

namespace Verif.Props
open Verif.Spec Verif.Track Verif.Omp Verif.Par Verif.CArg

/-- C112: the table of quantities speaks about every launch of the package. -/
theorem C112_every_launch : roles.map Prod.fst = launches := rfl

theorem recv_count (p : Prec) {a : Arg} (h : Fits .count a) : recv p .int a = quantity a := by
  obtain ⟨z, rfl, h1, h2⟩ := h
  exact congrArg Recv.int (signed_sent h1 h2)

theorem recv_array (p : Prec) {a : Arg} (h : Fits .array a) : recv p .ptr a = quantity a := by
  obtain ⟨s, rfl⟩ := h
  rfl

theorem recv_number (p : Prec) {a : Arg} (h : Fits .number a) : recv p .dbl a = quantity a := by
  obtain ⟨b, rfl⟩ := h
  rfl

theorem recv_real {a : Arg} (h : Fits .number a) : recv .double .real a = quantity a := by
  obtain ⟨b, rfl⟩ := h
  rfl

/-- a declared type that takes the quantities of a kind unchanged, in the given precision -/
def takes : Prec → Kind → Ty → Bool
  | _, .int, .count => true
  | _, .ptr, .array => true
  | _, .dbl, .number => true
  | .double, .real, .number => true
  | _, _, _ => false

theorem recv_takes {p : Prec} {k : Kind} {t : Ty} (ht : takes p k t = true) {a : Arg} (h : Fits t a) : recv p k a = quantity a := by
  cases p <;> cases k <;> cases t <;> first
    | exact recv_count _ h
    | exact recv_array _ h
    | exact recv_number _ h
    | exact recv_real h
    | cases ht

/-- parameters, declared types and variables of a launch -/
def slots (l : Launch) : List (String × Kind × String) := (l.params.zip l.args).map fun x => (x.1.1, x.1.2, l.origin x.2)

/-- the parameters of a launch agree with the table: same order, same variables, types that take the quantities -/
def agreeing (p : Prec) : List (String × Kind × String) → List Role → Bool
  | [], [] => true
  | s :: ss, r :: rs => (s.1 == r.param && s.2.2 == r.var && takes p s.2.1 r.ty) && agreeing p ss rs
  | _, _ => false

theorem agreeing_arrives {p : Prec} {env : String → Arg} : ∀ (ss : List (String × Kind × String)) (rs : List Role),
    agreeing p ss rs = true → (∀ r ∈ rs, Fits r.ty (env r.var)) →
    (ss.map fun s => (s.1, recv p s.2.1 (env s.2.2))) = rs.map fun r => (r.param, quantity (env r.var)) := by
  intro ss
  induction ss with
  | nil =>
    intro rs h _
    cases rs with
    | nil => rfl
    | cons r rs => cases h
  | cons s ss ih =>
    intro rs h hf
    cases rs with
    | nil => cases h
    | cons r rs =>
      simp only [agreeing, Bool.and_eq_true, beq_iff_eq] at h
      obtain ⟨⟨⟨h1, h2⟩, h3⟩, h4⟩ := h
      rw [List.map_cons, List.map_cons, ih rs h4 (fun r hr => hf r (List.mem_cons_of_mem _ hr)), h1, h2,
        recv_takes h3 (hf r (List.mem_cons_self ..))]

theorem receive_slots (l : Launch) (p : Prec) (env : String → Arg) :
    l.receive p env = (slots l).map fun s => (s.1, recv p s.2.1 (env s.2.2)) := by
  unfold Launch.receive slots
  rw [List.map_map]
  rfl

/-- C112: nothing is read as an array but an array, and nothing as a number but a number: in either precision a parameter holds an array
exactly if it is a pointer and that array was passed, and it holds garbage exactly if one of the two is an array and the other is not. -/
theorem C112_kinds (p : Prec) (k : Kind) (a : Arg) :
    (∀ s, recv p k a = .array s ↔ k = .ptr ∧ a = .array s) ∧
    (recv p k a = .wild ↔ ¬ (k = .ptr ↔ ∃ s, a = .array s)) := by
  cases k <;> cases a <;> simp [recv]

example : recv .double .ptr (.float 0) = .wild ∧ recv .double .real (.array "dphi") = .wild ∧
    recv .single .ptr (.array "dphi") = .array "dphi" := ⟨rfl, rfl, rfl⟩

/-- C112 (partial): in double precision every parameter of every kernel holds the quantity of the caller that belongs there: counts
that fit into 32 bits, `float`s, and arrays.  Missing: single precision (`C112_violated_ratio`, `C112_violated_phi12`) and numbers given as
an `int` (`C112_violated_int`). -/
theorem C112_double_partial {l : Launch} {rs : List Role} (hl : (l, rs) ∈ roles) {env : String → Arg}
    (h : ∀ r ∈ rs, Fits r.ty (env r.var)) : Arrives l rs .double env := by
  have hc : ∀ x ∈ roles, agreeing .double (slots x.1) x.2 = true := by decide +kernel
  unfold Arrives
  rw [receive_slots]
  exact agreeing_arrives _ _ (hc _ hl) h

/-- C112 (partial): the same in single precision for the reconstruction, and for the tracking apart from the harmonic ratio. -/
theorem C112_single_partial {l : Launch} {rs : List Role} (hl : (l, rs) ∈ roles) {env : String → Arg}
    (h : ∀ r ∈ rs, Fits r.ty (env r.var)) :
    (l.kernel ∉ ["kick_drift_up_turns", "kick_drift_down_turns"] → Arrives l rs .single env) ∧
    (l.receive .single env).filter (fun x => decide (x.1 ≠ "hratio")) =
      (rs.filter fun r => decide (r.param ≠ "hratio")).map fun r => (r.param, quantity (env r.var)) := by
  have hc : ∀ x ∈ roles, x.1.kernel ∉ ["kick_drift_up_turns", "kick_drift_down_turns"] → agreeing .single (slots x.1) x.2 = true := by
    decide +kernel
  have hd : ∀ x ∈ roles, agreeing .single ((slots x.1).filter fun s => decide (s.1 ≠ "hratio"))
      (x.2.filter fun r => decide (r.param ≠ "hratio")) = true := by
    decide +kernel
  refine ⟨fun hk => ?_, ?_⟩
  · unfold Arrives
    rw [receive_slots]
    exact agreeing_arrives _ _ (hc _ hl hk) h
  · rw [receive_slots, List.filter_map]
    exact agreeing_arrives _ _ (hd _ hl) fun r hr => h r (List.mem_of_mem_filter hr)

/-! ## Tracking -/

section track
variable {K : Type} [Field K]

/-- C112 (partial): in double precision, tracking with the harmonic ratio and the phase difference given as `float`s is tracking with these
two numbers (what C98 is about). -/
theorem C112_tracks_double_partial {sin : K → K} {B : ℕ} {m : Mach K} {hb pb : ℕ} {h q : ℚ} (e1 : Ieee.double hb = some h)
    (e2 : Ieee.double pb = some q) {dturns recProf deltaturn nturns : ℤ} {n : ℕ} {m₀ m₁ : Memory K} :
    CArg.Tracks .double sin B m (.float hb) (.float pb) dturns recProf deltaturn nturns n m₀ m₁ ↔
      Cuda.Tracks sin B { m with hratio := (h : K) } (q : K) dturns recProf deltaturn nturns n m₀ m₁ := by
  have e3 : recv .double .real (.float hb) = .num (some h) := congrArg Recv.num e1
  have e4 : phi12Read .double nturns (.float pb) = (List.replicate (nturns + 1).toNat q).map some := by
    show (List.replicate _ pb).map Ieee.double = _
    rw [List.map_replicate, e2, List.map_replicate]
  constructor
  · rintro ⟨h', ps, a1, a2, a3⟩
    rw [e3] at a1
    cases a1
    rw [e4] at a2
    have : List.replicate (nturns + 1).toNat q = ps := List.map_injective_iff.2 (Option.some_injective _) a2
    subst this
    rw [List.map_replicate] at a3
    exact a3
  · intro a
    refine ⟨h, _, e3, e4, ?_⟩
    rw [List.map_replicate]
    exact a

/-- **C112 is violated in single precision**: a harmonic ratio `±n·2^j` with `n` below `2²¹` – every integer, every half – arrives at the
tracking kernels as zero, whatever the other arguments. -/
theorem C112_violated_ratio {l : Launch} (hl : l = upTurns ∨ l = downTurns) {env : String → Arg} {b : ℕ} {h : ℚ}
    (he : env "h_ratio" = .float b) (hb : Ieee.double b = some h) (hs : Short h) (hn : (2 : ℚ) ^ (-1022 : ℤ) ≤ |h|) :
    ("hratio", Recv.num (some 0)) ∈ l.receive .single env ∧ h ≠ 0 := by
  refine ⟨?_, ?_⟩
  · rw [receive_slots]
    have hm : ("hratio", Kind.real, "h_ratio") ∈ slots l := by rcases hl with rfl | rfl <;> decide +kernel
    have := List.mem_map_of_mem (f := fun s : String × Kind × String => (s.1, recv .single s.2.1 (env s.2.2))) hm
    rwa [he, real_single_short hb hs hn] at this
  · rintro rfl
    rw [abs_zero] at hn
    exact absurd hn (not_le.2 (by positivity))

/-- **C112 is violated in single precision: the second RF system is switched off.**  With a harmonic ratio as above and a phase difference
both halves of whose pattern are finite `float`s, the GPU tracks exactly as with a second voltage of zero (and any ratio and phase difference),
without an error. -/
theorem C112_violated_second_system {sin : K → K} (h0 : sin 0 = 0) {B : ℕ} {m : Mach K} {hb pb : ℕ} {h q1 q2 : ℚ}
    (e1 : Ieee.double hb = some h) (hs : Short h) (hn : (2 : ℚ) ^ (-1022 : ℤ) ≤ |h|) (e2 : Ieee.single (pb % 2 ^ 32) = some q1)
    (e3 : Ieee.single (pb / 2 ^ 32) = some q2) (h' phi' : K) {dturns recProf deltaturn nturns : ℤ} (hr : recProf * dturns ≤ nturns)
    (hnt : 0 ≤ nturns) {n : ℕ} {m₀ m₁ : Memory K} :
    CArg.Tracks .single sin B m (.float hb) (.float pb) dturns recProf deltaturn nturns n m₀ m₁ ↔
      Cuda.Tracks sin B { m with rf2v := m.rf2v.map fun _ => 0, hratio := h' } phi' dturns recProf deltaturn nturns n m₀ m₁ := by
  have e4 : recv .single .real (.float hb) = .num (some 0) := real_single_short e1 hs hn
  have e5 : ∃ ps : List ℚ, phi12Read .single nturns (.float pb) = ps.map some ∧ ps.length = 2 * (nturns + 1).toNat := by
    have hl := length_halves (nturns + 1).toNat pb
    refine ⟨(halves (List.replicate (nturns + 1).toNat pb)).map fun w => (Ieee.single w).getD 0, ?_, by rw [List.length_map, hl]⟩
    show (halves _).map Ieee.single = _
    rw [List.map_map]
    apply List.map_congr_left
    intro w hw
    have : w = pb % 2 ^ 32 ∨ w = pb / 2 ^ 32 := by
      obtain ⟨u, hu, hw⟩ := List.mem_flatMap.1 hw
      cases List.eq_of_mem_replicate hu
      have hw : w ∈ [pb % 2 ^ 32, pb / 2 ^ 32] := hw
      simpa using hw
    rcases this with rfl | rfl
    · show Ieee.single _ = some ((Ieee.single _).getD 0)
      rw [e2]; rfl
    · show Ieee.single _ = some ((Ieee.single _).getD 0)
      rw [e3]; rfl
  obtain ⟨ps, e5, hps⟩ := e5
  have hal : ∀ k, k ≤ nturns → Alike (ps.map fun q : ℚ => (q : K)) (List.replicate (nturns + 1).toNat phi') k := by
    intro k hk
    apply alike_of_length
    · rw [List.length_map, hps]; omega
    · rw [List.length_replicate]; omega
  have hu : ∀ profile turn, Cuda.upThread sin { m with hratio := 0, phi12 := ps.map fun q : ℚ => (q : K) } dturns nturns n profile turn =
      Cuda.upThread sin { oneSystem m with hratio := h', phi12 := List.replicate (nturns + 1).toNat phi' } dturns nturns n profile turn := by
    intro profile turn
    funext tid
    unfold Cuda.upThread
    congr 1
    funext tid p e
    exact upLoop_zero h0 m h' hal _ p e profile turn
  have hd : Cuda.downThread sin { m with hratio := 0, phi12 := ps.map fun q : ℚ => (q : K) } dturns n recProf (recProf * dturns) =
      Cuda.downThread sin { oneSystem m with hratio := h', phi12 := List.replicate (nturns + 1).toNat phi' } dturns n recProf
        (recProf * dturns) := by
    funext tid
    unfold Cuda.downThread
    congr 1
    funext tid p e
    exact downLoop_zero h0 m h' hal _ p e recProf _ hr
  constructor
  · rintro ⟨h2, ps2, a1, a2, a3⟩
    rw [e4] at a1
    cases a1
    rw [e5] at a2
    have : ps = ps2 := List.map_injective_iff.2 (Option.some_injective _) a2
    subst this
    simp only [Rat.cast_zero, hu, hd] at a3
    exact a3
  · intro a
    refine ⟨0, ps, e4, e5, ?_⟩
    simp only [Rat.cast_zero, hu, hd]
    exact a

end track

/-- **C112 is violated in single precision: the phase difference.**  The array made of it has 64 bit elements, read as 32 bit numbers: the
kernels find the low half of the pattern at even turns and the high half at odd turns. -/
theorem C112_violated_phi12 {b nturns t : ℕ} (ht : t ≤ nturns) :
    (phi12Read .single nturns (.float b))[t]? = some (Ieee.single (if t % 2 = 0 then b % 2 ^ 32 else b / 2 ^ 32)) := by
  show ((halves (List.replicate _ b)).map Ieee.single)[t]? = _
  rw [List.getElem?_map]
  have := halves_get ((nturns : ℤ) + 1).toNat b (t / 2) (by omega)
  rcases Nat.mod_two_eq_zero_or_one t with h | h
  · rw [if_pos h, show t = 2 * (t / 2) by omega, this.1]; rfl
  · rw [if_neg (by omega), show t = 2 * (t / 2) + 1 by omega, this.2]; rfl

/-- **C112 is violated for a ratio or a phase difference given as an `int`**, in double precision: the kernels take the 64 bit integer for the
pattern of a `double`, a number below `10⁻³⁰⁰`. -/
theorem C112_violated_int {z : ℤ} (h0 : 0 ≤ z) (h1 : z < 2 ^ 31) (nturns : ℤ) :
    recv .double .real (.int z) = .num (some ((z : ℚ) * 2 ^ (-1074 : ℤ))) ∧
    phi12Read .double nturns (.int z) = List.replicate (nturns + 1).toNat (some ((z : ℚ) * 2 ^ (-1074 : ℤ))) := by
  obtain ⟨n, rfl⟩ := Int.eq_ofNat_of_zero_le h0
  have hn : n < 2 ^ 31 := by exact_mod_cast h1
  have es : sent (.int (n : ℤ)) = n := by
    show ((n : ℤ) % 2 ^ 64).toNat = n
    omega
  have e : Ieee.double n = some (((n : ℤ) : ℚ) * 2 ^ (-1074 : ℤ)) := by
    unfold Ieee.double Ieee.value
    dsimp only
    have a1 : n % 2 ^ 52 = n := Nat.mod_eq_of_lt (by omega)
    have a2 : n / 2 ^ 52 % 2 ^ 11 = 0 := by rw [Nat.div_eq_of_lt (by omega), Nat.zero_mod]
    have a3 : n / 2 ^ (52 + 11) % 2 = 0 := by rw [Nat.div_eq_of_lt (by omega), Nat.zero_mod]
    rw [a2, if_neg (by norm_num), if_pos rfl, a3, if_neg (by norm_num), a1, one_mul]
    norm_num
  constructor
  · show Recv.num (Ieee.double (sent _)) = _
    rw [es, e]
  · show (List.replicate _ (sent (.int (n : ℤ)))).map Ieee.double = _
    rw [es, List.map_replicate, e]

/-! ## One particle, one turn -/

/-- one turn without drift in the voltages `1` and `1`; `sin x = x` -/
def kickMach : Mach ℚ :=
  { rf1v := [0, 1], rf2v := [0, 1], phi0 := [0, 0], deltaE0 := [0, 0], driftCoef := [0, 0], phi12 := [], hratio := 0 }

theorem kick_result {m : Mach ℚ} {phi y : ℚ} {R : Program ℚ} (hA : Agrees (spread m phi ((2 - 1) * 1)) ((2 - 1) * 1) R)
    (hc : (match cppTrack id (spread m phi ((2 - 1) * 1)) 2 1 1 0 0 (fun _ _ => (0, 0)) (fun _ => (1, 0)) with
      | .ok st => st.yp
      | .error _ => []) = [[0], [y]]) {B : ℕ} (hB : 0 < B) {m₀ : Memory ℚ}
    (h0 : DeviceHolds m₀ 2 1 (fun _ _ => (0, 0)) (fun _ => (1, 0))) :
    (∀ m₁, Cuda.Tracks id B m phi 1 0 0 1 1 m₀ m₁ → m₁ (.real (.yp 0) 1) = y) ∧ ∃ m₁, Cuda.Tracks id B m phi 1 0 0 1 1 m₀ m₁ := by
  obtain ⟨⟨st, Y, e1, e2, e3⟩, e4⟩ := C98_every_schedule (s := 0) (d := 1) (r := 0) (δ := 0) id hB (by norm_num) hA (by norm_num) (by norm_num)
    (by norm_num) (by norm_num) (by norm_num) (fun _ _ => (0, 0)) (fun _ => (1, 0)) h0
  refine ⟨fun m₁ h => ?_, e4⟩
  have h2 := (e3 m₁ h 1 0 (by norm_num) (by norm_num)).2
  have hy : st.yp = [[0], [y]] := by rw [e1] at hc; exact hc
  rw [e2.2] at hy
  have hy : [[(Y 0 0).2], [(Y 1 0).2]] = [[0], [y]] := hy
  simp only [List.cons.injEq, and_true] at hy
  rw [← hy.2]
  exact h2

/-- **C112 is violated in single precision, in a concrete case**: a harmonic ratio of 2.0, no phase difference, one particle, one turn: in
double precision the particle gains three units of energy, one from the first and two from the second RF system, in single precision one. -/
theorem C112_violated_witness {B : ℕ} (hB : 0 < B) {m₀ : Memory ℚ} (h0 : DeviceHolds m₀ 2 1 (fun _ _ => (0, 0)) (fun _ => (1, 0))) :
    ((∀ m₁, CArg.Tracks .double id B kickMach (.float 0x4000000000000000) (.float 0) 1 0 0 1 1 m₀ m₁ → m₁ (.real (.yp 0) 1) = 3) ∧
      ∃ m₁, CArg.Tracks .double id B kickMach (.float 0x4000000000000000) (.float 0) 1 0 0 1 1 m₀ m₁) ∧
    (∀ m₁, CArg.Tracks .single id B kickMach (.float 0x4000000000000000) (.float 0) 1 0 0 1 1 m₀ m₁ → m₁ (.real (.yp 0) 1) = 1) ∧
      ∃ m₁, CArg.Tracks .single id B kickMach (.float 0x4000000000000000) (.float 0) 1 0 0 1 1 m₀ m₁ := by
  have t2 : Ieee.double 0x4000000000000000 = some 2 := by decide +kernel
  have z : Ieee.double 0 = some 0 := by decide +kernel
  have hn : (2 : ℚ) ^ (-1022 : ℤ) ≤ |2| := by
    rw [abs_of_pos (by norm_num : (0 : ℚ) < 2)]
    exact (zpow_le_zpow_right₀ (by norm_num) (by norm_num : (-1022 : ℤ) ≤ 1)).trans_eq (by norm_num)
  have hs : Short 2 := ⟨1, 1, by norm_num, by norm_num, Or.inl (by norm_num)⟩
  have a : ∀ m₁, CArg.Tracks .double id B kickMach (.float 0x4000000000000000) (.float 0) 1 0 0 1 1 m₀ m₁ ↔
      Cuda.Tracks id B { kickMach with hratio := 2 } 0 1 0 0 1 1 m₀ m₁ := by
    intro m₁
    have := C112_tracks_double_partial (sin := id) (B := B) (m := kickMach) t2 z (dturns := 1) (recProf := 0) (deltaturn := 0)
      (nturns := 1) (n := 1) (m₀ := m₀) (m₁ := m₁)
    simpa using this
  have b : ∀ m₁, CArg.Tracks .single id B kickMach (.float 0x4000000000000000) (.float 0) 1 0 0 1 1 m₀ m₁ ↔
      Cuda.Tracks id B { kickMach with rf2v := [0, 0], hratio := 0 } 0 1 0 0 1 1 m₀ m₁ := by
    intro m₁
    exact C112_violated_second_system (sin := id) (q1 := 0) (q2 := 0) rfl t2 hs hn (by decide +kernel) (by decide +kernel) 0 0 (by norm_num) (by norm_num)
  simp only [a, b]
  refine ⟨kick_result (R := ⟨fun t => t, fun t => t, fun _ => 0, fun _ => 0, fun _ => 0, fun _ => 0, 2⟩) ?_ (by decide +kernel) hB h0,
    kick_result (R := ⟨fun t => t, fun _ => 0, fun _ => 0, fun _ => 0, fun _ => 0, fun _ => 0, 0⟩) ?_ (by decide +kernel) hB h0⟩
  all_goals
    constructor <;> first | rfl | (intro t ht; interval_cases t <;> rfl)

/-! ## The hypotheses are met -/

-- the patterns of 2.0, 1.5 and 0.5, the harmonic ratio 2.0 of the examples of the package is short
example : Ieee.double 0x4000000000000000 = some 2 ∧ Ieee.double 0x3FF8000000000000 = some (3 / 2) ∧
    Ieee.double 0x3FE0000000000000 = some (1 / 2) := by decide +kernel
example : Short 2 ∧ (2 : ℚ) ^ (-1022 : ℤ) ≤ |2| :=
  ⟨⟨1, 1, by norm_num, by norm_num, Or.inl (by norm_num)⟩, by
    rw [abs_of_pos (by norm_num : (0 : ℚ) < 2)]
    exact (zpow_le_zpow_right₀ (by norm_num) (by norm_num : (-1022 : ℤ) ≤ 1)).trans_eq (by norm_num)⟩
-- a phase difference of one half: zero at even turns, 7/4 at odd turns
example : Ieee.single (0x3FE0000000000000 % 2 ^ 32) = some 0 ∧ Ieee.single (0x3FE0000000000000 / 2 ^ 32) = some (7 / 4) := by
  decide +kernel
-- other numbers arrive as something else: 1.1
example : Ieee.double 0x3FF199999999999A = some (2476979795053773 / 2251799813685248) ∧
    (Ieee.single (0x3FF199999999999A % 2 ^ 32)).map (fun q => decide (q < 0 ∧ -1 / 10 ^ 22 < q)) = some true := by decide +kernel
-- variables of a launch
def someVars : String → Arg := fun s =>
  if s ∈ ["h_ratio", "0.0", "max_bin_val"] then .float 0x4000000000000000
  else if s ∈ ["nparts", "turn", "nturns", "dturns", "profile", "n_particles", "n_profiles", "n_bins", "length"] then .int 7 else .array s
example : ∀ x ∈ roles, ∀ r ∈ x.2, Fits r.ty (someVars r.var) := by
  have h : ∀ x ∈ roles, ∀ r ∈ x.2, (match r.ty, someVars r.var with
    | .count, .int z => decide (-2 ^ 31 ≤ z ∧ z < 2 ^ 31)
    | .number, .float _ => true
    | .array, .array _ => true
    | _, _ => false) = true := by decide +kernel
  intro x hx r hr
  have := h x hx r hr
  revert this
  generalize someVars r.var = a
  cases r.ty <;> cases a <;> intro this
  all_goals first | (cases this; done) | skip
  · exact ⟨_, rfl, by simpa using this⟩
  · exact ⟨_, rfl⟩
  · exact ⟨_, rfl⟩

end Verif.Props
