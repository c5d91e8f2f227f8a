import Verif.Model.StepTrack
import Verif.Spec.StepTrack
import Verif.Props.Bind
import Verif.Lemmas.TrackingPy

/-! # The python loops on references against the loops on values -/

set_option linter.unusedSectionVars false

namespace Verif.StepT
open Verif.Bind Verif.Spec

/-- `x` does what `y` does, up to `R` -/
def Sim {σ τ : Type _} (R : σ → τ → Prop) (x : M σ) (y : M τ) : Prop :=
  match y with
  | .error f => x = .error f
  | .ok t => ∃ s, x = .ok s ∧ R s t

theorem Sim.bind {σ τ σ' τ' : Type _} {R : σ → τ → Prop} {Q : σ' → τ' → Prop} {x : M σ} {y : M τ} {f : σ → M σ'}
    {g : τ → M τ'} (h : Sim R x y) (hf : ∀ s t, R s t → Sim Q (f s) (g t)) : Sim Q (x >>= f) (y >>= g) := by
  unfold Sim at h
  cases y with
  | error e => rw [h]; exact rfl
  | ok t =>
    obtain ⟨s, e, hR⟩ := h
    rw [e]
    exact hf s t hR

theorem Sim.bindOk {σ τ σ' τ' : Type _} {R : σ → τ → Prop} {Q : σ' → τ' → Prop} {x : M σ} {y : M τ} {f : σ → M σ'}
    {g : τ → M τ'} (h : Sim R x y) (hf : ∀ s t, y = .ok t → R s t → Sim Q (f s) (g t)) : Sim Q (x >>= f) (y >>= g) := by
  unfold Sim at h
  cases y with
  | error e => rw [h]; exact rfl
  | ok t =>
    obtain ⟨s, e, hR⟩ := h
    rw [e]
    exact hf s t rfl hR

theorem Sim.ok {σ τ : Type _} {R : σ → τ → Prop} {s : σ} {t : τ} (h : R s t) : Sim R (.ok s) (.ok t) := ⟨s, rfl, h⟩

/-- the same computation on both sides -/
theorem Sim.same {σ : Type _} (x : M σ) : Sim Eq x x := by
  cases x with
  | error e => exact rfl
  | ok s => exact ⟨s, rfl, rfl⟩

theorem Sim.whileN {σ τ : Type _} {R : σ → τ → Prop} {c : σ → Bool} {c' : τ → Bool} {f : σ → M σ} {g : τ → M τ}
    (hc : ∀ s t, R s t → c s = c' t) (hf : ∀ s t, R s t → Sim R (f s) (g t)) (k : ℕ) :
    ∀ s t, R s t → Sim R (Verif.whileN k c f s) (Verif.whileN k c' g t) := by
  induction k with
  | zero =>
    intro s t h
    unfold Verif.whileN
    rw [hc s t h]
    split
    · exact rfl
    · exact Sim.ok h
  | succ k ih =>
    intro s t h
    unfold Verif.whileN
    rw [hc s t h]
    split
    · have hs := hf s t h
      unfold Sim at hs
      cases hg : g t with
      | error e => rw [hg] at hs; rw [hs]; exact rfl
      | ok t' =>
        rw [hg] at hs
        obtain ⟨s', e, hR⟩ := hs
        rw [e]
        exact ih s' t' hR
    · exact Sim.ok h

variable {α : Type}

/-- a reference that started at the caller's array `A0` (at `a0`) -/
def Ptr (h0 h : Heap α) (a0 : Int) (A0 : NdArr α) (a : Int) (v : List α) : Prop :=
  ∃ A, rd h a = .ok A ∧ A.rows = [v] ∧
    ((a = a0 ∧ A.dtype = A0.dtype ∧ A.order = A0.order ∧ (Direct A0 ∨ A = A0)) ∨
      (¬ Direct A0 ∧ (h0.length : Int) ≤ a ∧ Direct A))

/-- memory during a loop that began with memory `h0` -/
structure Mem (h0 h : Heap α) (p0 e0 : Int) (P0 E0 : NdArr α) (p e : Int) (vp ve : List α) : Prop where
  bp : rd h0 p0 = .ok P0
  be : rd h0 e0 = .ok E0
  bne : p0 ≠ e0
  hp : Ptr h0 h p0 P0 p vp
  he : Ptr h0 h e0 E0 e ve
  ne : p ≠ e
  frame : ∀ b C, rd h0 b = .ok C → b ≠ p → b ≠ e → rd h b = .ok C
  len : h0.length ≤ h.length

theorem Mem.symm {h0 h : Heap α} {p0 e0 : Int} {P0 E0 : NdArr α} {p e : Int} {vp ve : List α}
    (m : Mem h0 h p0 e0 P0 E0 p e vp ve) : Mem h0 h e0 p0 E0 P0 e p ve vp :=
  ⟨m.be, m.bp, m.bne.symm, m.he, m.hp, m.ne.symm, fun b C hb h1 h2 => m.frame b C hb h2 h1, m.len⟩

theorem Mem.start {h : Heap α} {p0 e0 : Int} {P0 E0 : NdArr α} {vp ve : List α} (hp : Is1D h p0 P0 vp)
    (he : Is1D h e0 E0 ve) (hne : p0 ≠ e0) : Mem h h p0 e0 P0 E0 p0 e0 vp ve :=
  ⟨hp.1, he.1, hne, ⟨P0, hp.1, hp.2, .inl ⟨rfl, rfl, rfl, .inr rfl⟩⟩, ⟨E0, he.1, he.2, .inl ⟨rfl, rfl, rfl, .inr rfl⟩⟩, hne,
    fun _ _ h _ _ => h, le_rfl⟩

theorem length_le_of {h h' : Heap α} (hr : ∀ b C, rd h b = .ok C → ∃ C', rd h' b = .ok C') : h.length ≤ h'.length := by
  by_contra hlt
  have hpos : 0 < h.length := by omega
  have hb : ∃ C, rd h ((h.length - 1 : ℕ) : Int) = .ok C := by
    unfold rd
    rw [if_pos (by omega), Int.toNat_natCast, List.getElem?_eq_getElem (by omega)]
    exact ⟨_, rfl⟩
  obtain ⟨C, hC⟩ := hb
  obtain ⟨C', hC'⟩ := hr _ _ hC
  have := (rd_lt hC').2
  omega

/-- a routine worked on the first reference -/
theorem Mem.returned {h0 h h' : Heap α} {p0 e0 : Int} {P0 E0 P : NdArr α} {p e r : Int} {vp ve v : List α}
    (m : Mem h0 h p0 e0 P0 E0 p e vp ve) (hP : rd h p = .ok P) (hR : Returned h h' p r P v) :
    Mem h0 h' p0 e0 P0 E0 r e v ve := by
  obtain ⟨⟨B, hB, hBr, hBt, hBo⟩, hra, hfresh, hframe⟩ := hR
  obtain ⟨P', hP', -, hcase⟩ := m.hp
  rw [hP] at hP'
  cases hP'
  obtain ⟨Q, hQ, hQr, hQc⟩ := m.he
  have hrne : r ≠ e := by
    by_cases hd : Direct P
    · rw [hra.mpr hd]; exact m.ne
    · have h1 := hfresh hd
      have h2 := (rd_lt hQ).2
      omega
  have hlen : h.length ≤ h'.length := by
    apply length_le_of
    intro b C hb
    by_cases hbr : b = r
    · rw [hbr]; exact ⟨B, hB⟩
    · exact ⟨C, hframe b C hb hbr⟩
  refine ⟨m.bp, m.be, m.bne, ⟨B, hB, hBr, ?_⟩, ⟨Q, hframe e Q hQ hrne.symm, hQr, hQc⟩, hrne, ?_, le_trans m.len hlen⟩
  · rcases hcase with ⟨c1, c2, c3, c4⟩ | ⟨c1, c2, c3⟩
    · by_cases hd : Direct P
      · left
        refine ⟨(hra.mpr hd).trans c1, ?_, ?_, .inl ?_⟩
        · rw [hBt, ← c2, hd.1]
        · rw [hBo, ← c3, hd.2]
        · exact ⟨c2 ▸ hd.1, c3 ▸ hd.2⟩
      · right
        refine ⟨fun hD => hd ⟨c2.trans hD.1, c3.trans hD.2⟩, ?_, ⟨hBt, hBo⟩⟩
        have h1 := hfresh hd
        have h2 := m.len
        omega
    · right
      refine ⟨c1, ?_, ⟨hBt, hBo⟩⟩
      rw [hra.mpr c3]; exact c2
  · intro b C hb hbr hbe
    by_cases hbp : b = p
    · subst hbp
      have hlt := (rd_lt hb).2
      rcases hcase with ⟨c1, c2, c3, c4⟩ | ⟨c1, c2, c3⟩
      · by_cases hd : Direct P
        · exact absurd (hra.mpr hd).symm hbr
        · rcases c4 with c4 | c4
          · exact absurd ⟨c2.trans c4.1, c3.trans c4.2⟩ hd
          · rw [c1, m.bp] at hb
            cases hb
            rw [hframe b P hP hbr, c4]
      · omega
    · exact hframe b C (m.frame b C hb hbp hbe) hbr

theorem Mem.left {h0 h : Heap α} {p0 e0 : Int} {P0 E0 : NdArr α} {p e : Int} {vp ve : List α}
    (m : Mem h0 h p0 e0 P0 E0 p e vp ve) : LeftIn h p0 P0 vp := by
  obtain ⟨A, hA, hr, hc⟩ := m.hp
  unfold LeftIn
  rcases hc with ⟨c1, c2, c3, c4⟩ | ⟨c1, c2, c3⟩
  · rw [← c1, hA]
    by_cases hd : P0.dtype = .f64 ∧ P0.order = .c
    · rw [if_pos hd]
      obtain ⟨t, o, r⟩ := A
      obtain ⟨t', o', r'⟩ := P0
      dsimp only at c2 c3 hr
      rw [c2, c3, hr]
    · rw [if_neg hd]
      rcases c4 with c4 | c4
      · exact absurd c4 hd
      · rw [c4]
  · rw [if_neg (show ¬ (P0.dtype = .f64 ∧ P0.order = .c) from c1)]
    have hlt := (rd_lt m.bp).2
    refine m.frame p0 P0 m.bp (by omega) ?_
    obtain ⟨Q, -, -, hq⟩ := m.he
    rcases hq with ⟨q1, -⟩ | ⟨-, q2, -⟩
    · rw [q1]; exact m.bne
    · omega

section
variable [Add α] [Sub α] [Mul α]

theorem drift_default (E : Env α) (h : Heap α) (de dp dc n t : PyVal α) :
    driftCall E h [de, dp, dc, n, t] = driftCall E h [de, dp, dc, n, t, .bool true] := by
  simp [driftCall, resolve, firstOverload, tryOverload, driftOverload]

theorem kick_default (E : Env α) (h : Heap α) (m de dp r1 r2 n t : PyVal α) :
    kickCall E h [m, de, dp, r1, r2, n, t] = kickCall E h [m, de, dp, r1, r2, n, t, .bool true] := by
  simp [kickCall, resolve, firstOverload, tryOverload, kickOverload]

/-- a table is still there -/
theorem Mem.table {h0 h : Heap α} {p0 e0 : Int} {P0 E0 : NdArr α} {p e : Int} {vp ve : List α}
    (m : Mem h0 h p0 e0 P0 E0 p e vp ve) {a : Int} {A : NdArr α} (ha : rd h0 a = .ok A) (h1 : a ∉ [p0, e0]) :
    rd h a = .ok A := by
  simp only [List.mem_cons, List.not_mem_nil, or_false, not_or] at h1
  have hlt := (rd_lt ha).2
  refine m.frame a A ha ?_ ?_
  · obtain ⟨Q, -, -, hq⟩ := m.hp
    rcases hq with ⟨q1, -⟩ | ⟨-, q2, -⟩
    · rw [q1]; exact h1.1
    · omega
  · obtain ⟨Q, -, -, hq⟩ := m.he
    rcases hq with ⟨q1, -⟩ | ⟨-, q2, -⟩
    · rw [q1]; exact h1.2
    · omega

theorem Mem.vals {h0 h : Heap α} {p0 e0 : Int} {P0 E0 : NdArr α} {p e : Int} {vp ve : List α}
    (m : Mem h0 h p0 e0 P0 E0 p e vp ve) : valuesAt h p = .ok vp := by
  obtain ⟨A, hA, hr, -⟩ := m.hp
  simp [valuesAt, hA, hr]

theorem num_of {E : Env α} (hcv : ∀ x, E.cv .f64 x = x) {v : Num α} {x : α}
    (h : v = .float x ∨ ∃ k, v = .int k ∧ E.ofInt k = x) : IsNum v ∧ numVal E .f64 v = x := by
  rcases h with h | ⟨k, h, hk⟩
  · rw [h]; exact ⟨fun a => by simp, hcv x⟩
  · rw [h]; exact ⟨fun a => by simp, by simp only [numVal, hcv, hk]⟩

/-- one drift -/
theorem drift_sim (E : Env α) (hcv : ∀ x, E.cv .f64 x = x) {h0 h : Heap α} {p0 e0 : Int} {P0 E0 : NdArr α} {p e : Int}
    {vp ve : List α} (m : Mem h0 h p0 e0 P0 E0 p e vp ve) {o : MachObj α} {r1 r2 : Int} {M : Track.Mach α} {x : α}
    (hM : InMemory E h0 o r1 r2 [p0, e0] M x) (n : ℕ) (turn : Int) (up : Bool) :
    Sim (fun r v => Mem h0 r.1 p0 e0 P0 E0 r.2 e v ve)
      (driftCall E h [.num (.arr e), .num (.arr p), .num (.arr o.driftCoef), .num (.int n), .num (.int turn), .bool up])
      (driftOnce up vp ve M.driftCoef n turn) := by
  obtain ⟨P, hP, hPr, -⟩ := id m.hp
  obtain ⟨Q, hQ, hQr, -⟩ := id m.he
  obtain ⟨D, hD, hDr⟩ := hM.driftCoef
  have := Props.C88_drift E hcv h hQ hP (m.table hD (hM.apart _ (by simp))) n turn up
  have e1 : P.rows.flatten = vp := by rw [hPr]; simp
  have e2 : Q.rows.flatten = ve := by rw [hQr]; simp
  rw [e1, e2, hDr] at this
  unfold Sim
  split at this
  · rename_i f hf
    rw [hf]; exact this
  · rename_i v hv
    rw [hv]
    obtain ⟨h', r, hc, hR⟩ := this
    exact ⟨(h', r), hc, m.returned hP hR⟩

/-- one kick -/
theorem kick_sim (E : Env α) (hcv : ∀ x, E.cv .f64 x = x) {h0 h : Heap α} {p0 e0 : Int} {P0 E0 : NdArr α} {p e : Int}
    {vp ve : List α} (m : Mem h0 h p0 e0 P0 E0 p e vp ve) {o : MachObj α} {r1 r2 : Int} {M : Track.Mach α} {x : α}
    (hM : InMemory E h0 o r1 r2 [p0, e0] M x) (n : ℕ) (turn : Int) (up : Bool) :
    Sim (fun r v => Mem h0 r.1 p0 e0 P0 E0 p r.2 vp v ∧ ∃ A, rd r.1 r.2 = .ok A ∧ Direct A)
      (kickCall E h [.machine o, .num (.arr e), .num (.arr p), .num (.arr r1), .num (.arr r2), .num (.int n), .num (.int turn),
        .bool up])
      (kickOnce E.sin up vp ve M.rf1v M.rf2v M.phi0 M.deltaE0 x M.hratio n turn) := by
  obtain ⟨P, hP, hPr, -⟩ := id m.hp
  obtain ⟨Q, hQ, hQr, -⟩ := id m.he
  obtain ⟨A1, a1, b1⟩ := hM.rf1v
  obtain ⟨A2, a2, b2⟩ := hM.rf2v
  obtain ⟨A3, a3, b3⟩ := hM.phi0
  obtain ⟨A4, a4, b4⟩ := hM.deltaE0
  obtain ⟨n1, n2⟩ := num_of hcv hM.number12
  obtain ⟨n3, n4⟩ := num_of hcv hM.ratio
  have := Props.C88_kick E hcv h o hQ hP (m.table a1 (hM.apart _ (by simp))) (m.table a2 (hM.apart _ (by simp)))
    (m.table a3 (hM.apart _ (by simp))) (m.table a4 (hM.apart _ (by simp))) n1 n3 n turn up
  have e1 : P.rows.flatten = vp := by rw [hPr]; simp
  have e2 : Q.rows.flatten = ve := by rw [hQr]; simp
  rw [e1, e2, b1, b2, b3, b4, n2, n4] at this
  unfold Sim
  split at this
  · rename_i f hf
    rw [hf]; exact this
  · rename_i v hv
    rw [hv]
    obtain ⟨h', r, hc, hR⟩ := this
    obtain ⟨B, hB, -, hBt, hBo⟩ := id hR.1
    exact ⟨(h', r), hc, (m.symm.returned hQ hR).symm, B, hB, hBt, hBo⟩

/-- loop on references and loop on values -/
structure Rel (h0 : Heap α) (p0 e0 : Int) (P0 E0 : NdArr α) (s : HS α) (t : Track.PS α) : Prop where
  mem : Mem h0 s.h p0 e0 P0 E0 s.dp s.de t.dphi t.denergy
  outPhi : s.outPhi = t.outPhi
  outEn : s.outEn = t.outEn
  profile : s.profile = t.profile
  turn : s.turn = t.turn

theorem upBodyPy_eq (sin : α → α) (M : Track.Mach α) (x : α) (d : Int) (n : ℕ) (t : Track.PS α) :
    Track.upBodyPy sin M x d n t = (do
      let dphi ← driftOnce true t.dphi t.denergy M.driftCoef n t.turn
      let denergy ← kickOnce sin true dphi t.denergy M.rf1v M.rf2v M.phi0 M.deltaE0 x M.hratio n (t.turn + 1)
      if (t.turn + 1) % d = 0 then
        let profile := t.profile + 1
        let a ← Track.setRow t.outPhi profile dphi
        let b ← Track.setRow t.outEn profile denergy
        pure ⟨a, b, dphi, denergy, profile, t.turn + 1⟩
      else pure ⟨t.outPhi, t.outEn, dphi, denergy, t.profile, t.turn + 1⟩) := by
  unfold Track.upBodyPy driftOnce kickOnce
  simp only [bind_assoc, if_true]

theorem downBodyPy_eq (sin : α → α) (M : Track.Mach α) (x : α) (d : Int) (n : ℕ) (t : Track.PS α) :
    Track.downBodyPy sin M x d n t = (do
      let denergy ← kickOnce sin false t.dphi t.denergy M.rf1v M.rf2v M.phi0 M.deltaE0 x M.hratio n t.turn
      let dphi ← driftOnce false t.dphi denergy M.driftCoef n (t.turn - 1)
      if (t.turn - 1) % d = 0 then
        let profile := t.profile - 1
        let a ← Track.setRow t.outPhi profile dphi
        let b ← Track.setRow t.outEn profile denergy
        pure ⟨a, b, dphi, denergy, profile, t.turn - 1⟩
      else pure ⟨t.outPhi, t.outEn, dphi, denergy, t.profile, t.turn - 1⟩) := by
  unfold Track.downBodyPy driftOnce kickOnce
  simp [bind_assoc]

theorem upStep_sim (E : Env α) (hcv : ∀ x, E.cv .f64 x = x) {h0 : Heap α} {p0 e0 : Int} {P0 E0 : NdArr α}
    {o : MachObj α} {r1 r2 : Int} {M : Track.Mach α} {x : α} (hM : InMemory E h0 o r1 r2 [p0, e0] M x) (n : ℕ)
    (s : HS α) (t : Track.PS α) (h : Rel h0 p0 e0 P0 E0 s t) :
    Sim (Rel h0 p0 e0 P0 E0) (upStep E o r1 r2 n s) (Track.upBodyPy E.sin M x o.dturns n t) := by
  rw [upBodyPy_eq]
  unfold upStep
  rw [drift_default, h.turn]
  refine Sim.bind (drift_sim E hcv h.mem hM n t.turn true) ?_
  rintro ⟨h1, dp⟩ v m1
  dsimp only at m1 ⊢
  rw [kick_default]
  refine Sim.bind (kick_sim E hcv m1 hM n (t.turn + 1) true) ?_
  rintro ⟨h2, de⟩ w ⟨m2, -⟩
  dsimp only at m2 ⊢
  split
  · rw [m2.vals, m2.symm.vals, h.outPhi, h.outEn, h.profile]
    simp only [bind_ok]
    refine Sim.bind (Sim.same _) ?_
    rintro a _ rfl
    refine Sim.bind (Sim.same _) ?_
    rintro b _ rfl
    exact Sim.ok ⟨m2, rfl, rfl, rfl, rfl⟩
  · exact Sim.ok ⟨m2, h.outPhi, h.outEn, h.profile, rfl⟩

theorem downStep_sim (E : Env α) (hcv : ∀ x, E.cv .f64 x = x) {h0 : Heap α} {p0 e0 : Int} {P0 E0 : NdArr α}
    {o : MachObj α} {r1 r2 : Int} {M : Track.Mach α} {x : α} (hM : InMemory E h0 o r1 r2 [p0, e0] M x) (n : ℕ)
    (s : HS α) (t : Track.PS α) (h : Rel h0 p0 e0 P0 E0 s t) :
    Sim (Rel h0 p0 e0 P0 E0) (downStep E o r1 r2 n s) (Track.downBodyPy E.sin M x o.dturns n t) := by
  rw [downBodyPy_eq]
  unfold downStep
  rw [h.turn]
  refine Sim.bind (kick_sim E hcv h.mem hM n t.turn false) ?_
  rintro ⟨h1, de⟩ v ⟨m1, -⟩
  dsimp only at m1 ⊢
  refine Sim.bind (drift_sim E hcv m1 hM n (t.turn - 1) false) ?_
  rintro ⟨h2, dp⟩ w m2
  dsimp only at m2 ⊢
  split
  · rw [m2.vals, m2.symm.vals, h.outPhi, h.outEn, h.profile]
    simp only [bind_ok]
    refine Sim.bind (Sim.same _) ?_
    rintro a _ rfl
    refine Sim.bind (Sim.same _) ?_
    rintro b _ rfl
    exact Sim.ok ⟨m2, rfl, rfl, rfl, rfl⟩
  · exact Sim.ok ⟨m2, h.outPhi, h.outEn, h.profile, rfl⟩

/-- tracking.py:252-289 on values: everything up to the end of the upward loop -/
def upPart (sin : α → α) (zero : α) (denergy dphi : List α) (m : Track.Mach α) (phi12 : α)
    (dturns nprofiles recProf deltaturn : Int) : M (Track.PS α) := do
  let n := denergy.length
  let out := List.replicate nprofiles.toNat (List.replicate n zero)
  let nturns := dturns * (nprofiles - 1)
  let a ← Track.storeStart out recProf deltaturn dphi
  let b ← Track.storeStart out recProf deltaturn denergy
  let recTurn := recProf * dturns + deltaturn
  let profile := if deltaturn < 0 then recProf - 1 else recProf
  whileN (nturns - recTurn).toNat (fun s => decide (s.turn < nturns)) (Track.upBodyPy sin m phi12 dturns n)
    ⟨a, b, dphi, denergy, profile, recTurn⟩

theorem kickAndDriftPy_parts (sin : α → α) (zero : α) (denergy dphi : List α) (m : Track.Mach α) (phi12 : α)
    (dturns nprofiles recProf deltaturn : Int) :
    Track.kickAndDriftPy sin zero denergy dphi m phi12 dturns nprofiles recProf deltaturn =
      (do
        let s ← upPart sin zero denergy dphi m phi12 dturns nprofiles recProf deltaturn
        whileN (recProf * dturns + deltaturn).toNat (fun s => decide (0 < s.turn))
          (Track.downBodyPy sin m phi12 dturns denergy.length)
          { s with dphi := dphi, denergy := denergy, turn := recProf * dturns + deltaturn, profile := recProf }) := by
  unfold Track.kickAndDriftPy upPart
  simp only [bind_assoc]

theorem inMemory_mono {E : Env α} {h h' : Heap α} {o : MachObj α} {r1 r2 : Int} {l l' : List Int} {m : Track.Mach α} {x : α}
    (hM : InMemory E h o r1 r2 l m x)
    (hh : ∀ a ∈ [r1, r2, o.phi0, o.deltaE0, o.driftCoef], ∀ A, rd h a = .ok A → rd h' a = .ok A ∧ a ∉ l') :
    InMemory E h' o r1 r2 l' m x := by
  obtain ⟨⟨A1, a1, b1⟩, ⟨A2, a2, b2⟩, ⟨A3, a3, b3⟩, ⟨A4, a4, b4⟩, ⟨A5, a5, b5⟩, -, n1, n2⟩ := hM
  refine ⟨⟨A1, (hh _ (by simp) _ a1).1, b1⟩, ⟨A2, (hh _ (by simp) _ a2).1, b2⟩, ⟨A3, (hh _ (by simp) _ a3).1, b3⟩,
    ⟨A4, (hh _ (by simp) _ a4).1, b4⟩, ⟨A5, (hh _ (by simp) _ a5).1, b5⟩, ?_, n1, n2⟩
  intro a ha
  simp only [List.mem_cons, List.not_mem_nil, or_false] at ha
  rcases ha with rfl | rfl | rfl | rfl | rfl
  · exact (hh _ (by simp) _ a1).2
  · exact (hh _ (by simp) _ a2).2
  · exact (hh _ (by simp) _ a3).2
  · exact (hh _ (by simp) _ a4).2
  · exact (hh _ (by simp) _ a5).2

/-- two copies behind the memory -/
theorem copies {h : Heap α} {a b : Int} {A B : NdArr α} {v w : List α} (ha : Is1D h a A v) (hb : Is1D h b B w) :
    ∃ h1 h2 A' B', npCopy h a = .ok (h1, (h.length : Int)) ∧ npCopy h1 b = .ok (h2, (h.length : Int) + 1) ∧
      Is1D h2 h.length A' v ∧ Is1D h2 (h.length + 1) B' w ∧ (∀ c C, rd h c = .ok C → rd h2 c = .ok C) ∧
      h2.length = h.length + 2 := by
  refine ⟨h ++ [⟨A.dtype, keepOrder A.order, A.rows⟩],
    h ++ [⟨A.dtype, keepOrder A.order, A.rows⟩] ++ [⟨B.dtype, keepOrder B.order, B.rows⟩],
    ⟨A.dtype, keepOrder A.order, A.rows⟩, ⟨B.dtype, keepOrder B.order, B.rows⟩, ?_, ?_, ⟨?_, ha.2⟩, ⟨?_, hb.2⟩, ?_, by simp⟩
  · unfold npCopy
    rw [ha.1]
    rfl
  · unfold npCopy
    rw [rd_left hb.1]
    simp
  · rw [List.append_assoc]
    have := rd_right h ([⟨A.dtype, keepOrder A.order, A.rows⟩] ++ [⟨B.dtype, keepOrder B.order, B.rows⟩]) 0
    simp only [Nat.cast_zero, add_zero] at this
    rw [this]
    rfl
  · rw [List.append_assoc]
    have := rd_right h ([⟨A.dtype, keepOrder A.order, A.rows⟩] ++ [⟨B.dtype, keepOrder B.order, B.rows⟩]) 1
    simp only [Nat.cast_one] at this
    rw [this]
    rfl
  · intro c C hc
    exact rd_left (rd_left hc)

/-- the whole routine -/
theorem kickAndDriftH_sim (E : Env α) (hcv : ∀ x, E.cv .f64 x = x) {h : Heap α} {o : MachObj α} {de dp r1 r2 : Int}
    {De Dp : NdArr α} {e p : List α} (hde : Is1D h de De e) (hdp : Is1D h dp Dp p) (hne : dp ≠ de) {M : Track.Mach α} {x : α}
    (hM : InMemory E h o r1 r2 [dp, de] M x) (P r δ : Int) :
    Sim (fun s t => s.outPhi = t.outPhi ∧ s.outEn = t.outEn ∧
        (∀ b C, rd h b = .ok C → b ≠ dp → b ≠ de → rd s.h b = .ok C) ∧
        ∃ u, upPart E.sin E.zero e p M x o.dturns P r δ = .ok u ∧ LeftIn s.h dp Dp u.dphi ∧ LeftIn s.h de De u.denergy)
      (kickAndDriftH E h o de dp r1 r2 (o.dturns * (P - 1)) P r δ)
      (Track.kickAndDriftPy E.sin E.zero e p M x o.dturns P r δ) := by
  rw [kickAndDriftPy_parts]
  unfold kickAndDriftH
  have v1 : valuesAt h de = .ok e := by simp [valuesAt, hde.1, hde.2]
  have v2 : valuesAt h dp = .ok p := by simp [valuesAt, hdp.1, hdp.2]
  rw [v1, v2]
  simp only [bind_ok]
  obtain ⟨h1', h1, P1, E1, n1, n2, c1, c2, c3, c4⟩ := copies hdp hde
  rw [n1]
  simp only [bind_ok]
  rw [n2]
  simp only [bind_ok]
  have lp := rd_lt hdp.1
  have le := rd_lt hde.1
  have hM1 : InMemory E h1 o r1 r2 [dp, de] M x := inMemory_mono hM fun a ha A hA => ⟨c3 a A hA, hM.apart a ha⟩
  have m0 : Mem h1 h1 dp de Dp De dp de p e := Mem.start ⟨c3 _ _ hdp.1, hdp.2⟩ ⟨c3 _ _ hde.1, hde.2⟩ hne
  have hup : Sim (Rel h1 dp de Dp De)
      ((do
        let a ← Track.storeStart (List.replicate P.toNat (List.replicate e.length E.zero)) r δ p
        let b ← Track.storeStart (List.replicate P.toNat (List.replicate e.length E.zero)) r δ e
        whileN (o.dturns * (P - 1) - (r * o.dturns + δ)).toNat (fun s => decide (s.turn < o.dturns * (P - 1)))
          (upStep E o r1 r2 e.length) ⟨h1, a, b, dp, de, if δ < 0 then r - 1 else r, r * o.dturns + δ⟩))
      (upPart E.sin E.zero e p M x o.dturns P r δ) := by
    unfold upPart
    refine Sim.bind (Sim.same _) ?_
    rintro a _ rfl
    refine Sim.bind (Sim.same _) ?_
    rintro b _ rfl
    refine Sim.whileN (fun s t hR => by rw [hR.turn]) (fun s t hR => upStep_sim E hcv hM1 e.length s t hR) _ _ _ ?_
    exact ⟨m0, rfl, rfl, rfl, rfl⟩
  have key := Sim.bindOk (Q := fun s t => s.outPhi = t.outPhi ∧ s.outEn = t.outEn ∧
        (∀ b C, rd h b = .ok C → b ≠ dp → b ≠ de → rd s.h b = .ok C) ∧
        ∃ u, upPart E.sin E.zero e p M x o.dturns P r δ = .ok u ∧ LeftIn s.h dp Dp u.dphi ∧ LeftIn s.h de De u.denergy) hup
      (f := fun s => do
      let y ← npCopy s.h h.length
      let z ← npCopy y.1 (h.length + 1)
      whileN (r * o.dturns + δ).toNat (fun s => decide (0 < s.turn)) (downStep E o r1 r2 e.length)
        { s with h := z.1, dp := y.2, de := z.2, turn := r * o.dturns + δ, profile := r })
      (g := fun s => whileN (r * o.dturns + δ).toNat (fun s => decide (0 < s.turn))
          (Track.downBodyPy E.sin M x o.dturns e.length)
          { s with dphi := p, denergy := e, turn := r * o.dturns + δ, profile := r }) ?_
  · simp only [bind_assoc] at key
    exact key
  · intro s u hu hR
    have L1 := hR.mem.left
    have L2 := hR.mem.symm.left
    -- the copies are still there
    have inert : ∀ b C, rd h1 b = .ok C → b ≠ dp → b ≠ de → rd s.h b = .ok C := fun b C hb b1 b2 =>
      hR.mem.table hb (by simp [b1, b2])
    have k1 : Is1D s.h h.length P1 p := ⟨inert _ _ c1.1 (by omega) (by omega), c1.2⟩
    have k2 : Is1D s.h (h.length + 1) E1 e := ⟨inert _ _ c2.1 (by omega) (by omega), c2.2⟩
    obtain ⟨g1, g2, P2, E2, d1, d2, d3, d4, d5, d6⟩ := copies k1 k2
    have hl := hR.mem.len
    rw [d1]
    simp only [bind_ok]
    rw [d2]
    simp only [bind_ok]
    have m1 : Mem g2 g2 s.h.length (s.h.length + 1) P2 E2 s.h.length (s.h.length + 1) p e := Mem.start d3 d4 (by omega)
    have hM2 : InMemory E g2 o r1 r2 [(s.h.length : Int), s.h.length + 1] M x := by
      refine inMemory_mono hM fun a ha A hA => ?_
      have hap := hM.apart a ha
      simp only [List.mem_cons, List.not_mem_nil, or_false, not_or] at hap ⊢
      have hlt := rd_lt hA
      exact ⟨d5 _ _ (inert _ _ (c3 _ _ hA) hap.1 hap.2), by omega, by omega⟩
    have hdn := Sim.whileN (R := Rel g2 s.h.length (s.h.length + 1) P2 E2) (c := fun s : HS α => decide (0 < s.turn))
      (c' := fun s : Track.PS α => decide (0 < s.turn)) (fun s t hR => by rw [hR.turn])
      (fun s t hR => downStep_sim E hcv hM2 e.length s t hR) (r * o.dturns + δ).toNat
      { s with h := g2, dp := s.h.length, de := s.h.length + 1, turn := r * o.dturns + δ, profile := r }
      { u with dphi := p, denergy := e, turn := r * o.dturns + δ, profile := r } ⟨m1, hR.outPhi, hR.outEn, rfl, rfl⟩
    unfold Sim at hdn ⊢
    split
    · rename_i f hf
      rw [hf] at hdn
      exact hdn
    · rename_i t ht
      rw [ht] at hdn
      obtain ⟨w, hw, hRw⟩ := hdn
      have keep : ∀ b C, rd s.h b = .ok C → rd w.h b = .ok C := by
        intro b C hb
        have hlt := rd_lt hb
        refine hRw.mem.table (d5 _ _ hb) ?_
        simp only [List.mem_cons, List.not_mem_nil, or_false, not_or]
        omega
      refine ⟨w, hw, hRw.outPhi, hRw.outEn, fun b C hb b1 b2 => keep _ _ (inert _ _ (c3 _ _ hb) b1 b2), u, hu, ?_, ?_⟩
      · exact keep _ _ L1
      · exact keep _ _ L2

end

/-! ## with self fields -/

/-- an assignment in place to the array of the second reference, once it is one the compiled code works on -/
theorem Mem.assign {h0 h : Heap α} {p0 e0 : Int} {P0 E0 A : NdArr α} {p e : Int} {vp ve : List α}
    (m : Mem h0 h p0 e0 P0 E0 p e vp ve) (hA : rd h e = .ok A) (hD : Direct A) (w : List α) :
    ∃ h', upd h e { A with rows := [w] } = .ok h' ∧ Mem h0 h' p0 e0 P0 E0 p e vp w := by
  obtain ⟨h', u1, -, u3, u4⟩ := upd_spec (w := { A with rows := [w] }) hA
  refine ⟨h', u1, (m.symm.returned hA ⟨⟨_, u3, rfl, hD.1, hD.2⟩, by simp [hD], fun hn => absurd hD hn, ?_⟩).symm⟩
  intro b C hb hne
  rw [u4 b hne]
  exact hb

section
open SelfF
variable {K : Type} [Field K] [LinearOrder K] [FloorRing K]

/-- loop on references and loop on values -/
structure RelS (h0 : Heap K) (p0 e0 : Int) (P0 E0 : NdArr K) (s : HSS K) (t : SS K) : Prop where
  mem : Mem h0 s.h p0 e0 P0 E0 s.dp s.de t.dphi t.denergy
  xp : s.xp = t.xp
  yp : s.yp = t.yp
  tempXp : s.tempXp = t.tempXp
  profile : s.profile = t.profile
  turn : s.turn = t.turn

theorem upBodySelf_eq (sin : K → K) (M : Track.Mach K) (x : K) (f : SF K) (d : Int) (n : ℕ) (t : SS K) :
    upBodySelf sin M x f d n t = (do
      let dphi ← driftOnce true t.dphi t.denergy M.driftCoef n t.turn
      let xp ← calcXpSf f M.phi0 (t.turn + 1) dphi
      let sv ← lookup f t.profile (-1) xp
      let denergy ← kickOnce sin true dphi t.denergy M.rf1v M.rf2v M.phi0 M.deltaE0 x M.hratio n (t.turn + 1)
      let denergy := addSelf f denergy sv
      if (t.turn + 1) % d = 0 then
        let profile := t.profile + 1
        let a ← Track.setRow t.xp profile xp
        let y ← toY f denergy
        let b ← Track.setRow t.yp profile y
        pure ⟨a, b, dphi, denergy, xp, profile, t.turn + 1⟩
      else pure ⟨t.xp, t.yp, dphi, denergy, xp, t.profile, t.turn + 1⟩) := by
  unfold upBodySelf driftOnce kickOnce
  simp only [bind_assoc, if_true]

theorem downBodySelf_eq (sin : K → K) (M : Track.Mach K) (x : K) (f : SF K) (d : Int) (n : ℕ) (t : SS K) :
    downBodySelf sin M x f d n t = (do
      let sv ← lookup f t.profile 0 t.tempXp
      let denergy ← kickOnce sin false t.dphi t.denergy M.rf1v M.rf2v M.phi0 M.deltaE0 x M.hratio n t.turn
      let denergy := addSelf f denergy sv
      let dphi ← driftOnce false t.dphi denergy M.driftCoef n (t.turn - 1)
      let xp ← calcXpSf f M.phi0 (t.turn - 1) dphi
      if (t.turn - 1) % d = 0 then
        let a ← Track.setRow t.xp t.profile xp
        let y ← toY f denergy
        let b ← Track.setRow t.yp t.profile y
        pure ⟨a, b, dphi, denergy, xp, t.profile - 1, t.turn - 1⟩
      else pure ⟨t.xp, t.yp, dphi, denergy, xp, t.profile, t.turn - 1⟩) := by
  unfold downBodySelf driftOnce kickOnce
  simp [bind_assoc]

theorem Mem.addSelf {h0 h : Heap K} {p0 e0 : Int} {P0 E0 A : NdArr K} {p e : Int} {vp ve : List K}
    (m : Mem h0 h p0 e0 P0 E0 p e vp ve) (hA : rd h e = .ok A) (hD : Direct A) (f : SF K) (sv : List K) :
    ∃ h', addSelfH f h e sv = .ok h' ∧ Mem h0 h' p0 e0 P0 E0 p e vp (SelfF.addSelf f ve sv) := by
  obtain ⟨B, hB, hr, -⟩ := id m.he
  rw [hA] at hB
  cases hB
  have e1 : A.rows.flatten = ve := by rw [hr]; simp
  obtain ⟨h', u1, u2⟩ := m.assign hA hD (SelfF.addSelf f ve sv)
  refine ⟨h', ?_, u2⟩
  unfold addSelfH
  rw [hA]
  simp only [bind_ok]
  rw [e1, u1]

theorem upStepSelf_sim (E : Env K) (hcv : ∀ x, E.cv .f64 x = x) {h0 : Heap K} {p0 e0 : Int} {P0 E0 : NdArr K}
    {o : MachObj K} {r1 r2 : Int} {M : Track.Mach K} {x : K} (hM : InMemory E h0 o r1 r2 [p0, e0] M x) (f : SF K) (n : ℕ)
    (s : HSS K) (t : SS K) (h : RelS h0 p0 e0 P0 E0 s t) :
    Sim (RelS h0 p0 e0 P0 E0) (upStepSelf E o f M.phi0 r1 r2 n s) (upBodySelf E.sin M x f o.dturns n t) := by
  rw [upBodySelf_eq]
  unfold upStepSelf
  rw [drift_default, h.turn]
  refine Sim.bind (drift_sim E hcv h.mem hM n t.turn true) ?_
  rintro ⟨h1, dp⟩ v m1
  dsimp only at m1 ⊢
  rw [m1.vals, h.profile]
  simp only [bind_ok]
  refine Sim.bind (Sim.same _) ?_
  rintro xp _ rfl
  refine Sim.bind (Sim.same _) ?_
  rintro sv _ rfl
  rw [kick_default]
  refine Sim.bind (kick_sim E hcv m1 hM n (t.turn + 1) true) ?_
  rintro ⟨h2, de⟩ w ⟨m2, A, hA, hD⟩
  dsimp only at m2 hA ⊢
  obtain ⟨h3, u1, m3⟩ := m2.addSelf hA hD f sv
  rw [u1]
  simp only [bind_ok]
  split
  · rw [h.xp, h.yp, m3.symm.vals]
    refine Sim.bind (Sim.same _) ?_
    rintro a _ rfl
    simp only [bind_ok]
    refine Sim.bind (Sim.same _) ?_
    rintro y _ rfl
    refine Sim.bind (Sim.same _) ?_
    rintro b _ rfl
    exact Sim.ok ⟨m3, rfl, rfl, rfl, rfl, rfl⟩
  · exact Sim.ok ⟨m3, h.xp, h.yp, rfl, rfl, rfl⟩

theorem downStepSelf_sim (E : Env K) (hcv : ∀ x, E.cv .f64 x = x) {h0 : Heap K} {p0 e0 : Int} {P0 E0 : NdArr K}
    {o : MachObj K} {r1 r2 : Int} {M : Track.Mach K} {x : K} (hM : InMemory E h0 o r1 r2 [p0, e0] M x) (f : SF K) (n : ℕ)
    (s : HSS K) (t : SS K) (h : RelS h0 p0 e0 P0 E0 s t) :
    Sim (RelS h0 p0 e0 P0 E0) (downStepSelf E o f M.phi0 r1 r2 n s) (downBodySelf E.sin M x f o.dturns n t) := by
  rw [downBodySelf_eq]
  unfold downStepSelf
  rw [h.turn, h.profile, h.tempXp]
  refine Sim.bind (Sim.same _) ?_
  rintro sv _ rfl
  refine Sim.bind (kick_sim E hcv h.mem hM n t.turn false) ?_
  rintro ⟨h1, de⟩ w ⟨m1, A, hA, hD⟩
  dsimp only at m1 hA ⊢
  obtain ⟨h2, u1, m2⟩ := m1.addSelf hA hD f sv
  rw [u1]
  simp only [bind_ok]
  refine Sim.bind (drift_sim E hcv m2 hM n (t.turn - 1) false) ?_
  rintro ⟨h3, dp⟩ v m3
  dsimp only at m3 ⊢
  rw [m3.vals]
  simp only [bind_ok]
  refine Sim.bind (Sim.same _) ?_
  rintro xp _ rfl
  split
  · rw [h.xp, h.yp, m3.symm.vals]
    refine Sim.bind (Sim.same _) ?_
    rintro a _ rfl
    simp only [bind_ok]
    refine Sim.bind (Sim.same _) ?_
    rintro y _ rfl
    refine Sim.bind (Sim.same _) ?_
    rintro b _ rfl
    exact Sim.ok ⟨m3, rfl, rfl, rfl, rfl, rfl⟩
  · exact Sim.ok ⟨m3, h.xp, h.yp, rfl, rfl, rfl⟩

/-- the whole routine with self fields -/
theorem kickAndDriftSelfH_sim (E : Env K) (hcv : ∀ x, E.cv .f64 x = x) {h : Heap K} {o : MachObj K} {de dp r1 r2 : Int}
    {De Dp : NdArr K} {e p : List K} (hde : Is1D h de De e) (hdp : Is1D h dp Dp p) (hne : dp ≠ de) {M : Track.Mach K} {x : K}
    (hM : InMemory E h o r1 r2 [dp, de] M x) (f : SF K) (nturns P r : Int) :
    Sim (fun s t => (s.xp, s.yp) = t.1 ∧ (∀ b C, rd h b = .ok C → b ≠ dp → b ≠ de → rd s.h b = .ok C) ∧
        LeftIn s.h dp Dp t.2.1 ∧ LeftIn s.h de De t.2.2)
      (kickAndDriftSelfH E h o f M.phi0 de dp r1 r2 nturns P r)
      (TrkO.kickAndDriftSelfO E.sin M x f nturns o.dturns P r e p) := by
  unfold kickAndDriftSelfH TrkO.kickAndDriftSelfO
  have v1 : valuesAt h de = .ok e := by simp [valuesAt, hde.1, hde.2]
  have v2 : valuesAt h dp = .ok p := by simp [valuesAt, hdp.1, hdp.2]
  rw [v1, v2]
  simp only [bind_ok]
  obtain ⟨h1', h1, P1, E1, n1, n2, c1, c2, c3, c4⟩ := copies hdp hde
  rw [n1]
  simp only [bind_ok]
  rw [n2]
  simp only [bind_ok]
  have lp := rd_lt hdp.1
  have le := rd_lt hde.1
  have hM1 : InMemory E h1 o r1 r2 [dp, de] M x := inMemory_mono hM fun a ha A hA => ⟨c3 a A hA, hM.apart a ha⟩
  have m0 : Mem h1 h1 dp de Dp De dp de p e := Mem.start ⟨c3 _ _ hdp.1, hdp.2⟩ ⟨c3 _ _ hde.1, hde.2⟩ hne
  refine Sim.bind (Sim.same _) ?_
  rintro x0 _ rfl
  refine Sim.bind (Sim.same _) ?_
  rintro a _ rfl
  refine Sim.bind (Sim.same _) ?_
  rintro y0 _ rfl
  refine Sim.bind (Sim.same _) ?_
  rintro b _ rfl
  refine Sim.bind (R := RelS h1 dp de Dp De)
    (Sim.whileN (fun s t hR => by rw [hR.turn]) (fun s t hR => upStepSelf_sim E hcv hM1 f e.length s t hR) _ _ _
      ⟨m0, rfl, rfl, rfl, rfl, rfl⟩) ?_
  intro s u hR
  have L1 := hR.mem.left
  have L2 := hR.mem.symm.left
  have inert : ∀ b C, rd h1 b = .ok C → b ≠ dp → b ≠ de → rd s.h b = .ok C := fun b C hb b1 b2 =>
    hR.mem.table hb (by simp [b1, b2])
  have k1 : Is1D s.h h.length P1 p := ⟨inert _ _ c1.1 (by omega) (by omega), c1.2⟩
  have k2 : Is1D s.h (h.length + 1) E1 e := ⟨inert _ _ c2.1 (by omega) (by omega), c2.2⟩
  rw [hR.xp]
  refine Sim.bind (Sim.same _) ?_
  rintro x1 _ rfl
  have m1 : Mem s.h s.h h.length (h.length + 1) P1 E1 h.length (h.length + 1) p e := Mem.start k1 k2 (by omega)
  have hM2 : InMemory E s.h o r1 r2 [(h.length : Int), h.length + 1] M x := by
    refine inMemory_mono hM fun a ha A hA => ?_
    have hap := hM.apart a ha
    simp only [List.mem_cons, List.not_mem_nil, or_false, not_or] at hap ⊢
    have hlt := rd_lt hA
    exact ⟨inert _ _ (c3 _ _ hA) hap.1 hap.2, by omega, by omega⟩
  have hdn := Sim.whileN (R := RelS s.h h.length (h.length + 1) P1 E1) (c := fun s : HSS K => decide (0 < s.turn))
    (c' := fun s : SS K => decide (0 < s.turn)) (fun s t hR => by rw [hR.turn])
    (fun s t hR => downStepSelf_sim E hcv hM2 f e.length s t hR) (r * o.dturns).toNat
    { s with dp := h.length, de := h.length + 1, tempXp := x1, profile := r - 1, turn := r * o.dturns }
    { u with dphi := p, denergy := e, tempXp := x1, profile := r - 1, turn := r * o.dturns }
    ⟨m1, hR.xp, hR.yp, rfl, rfl, rfl⟩
  have key := Sim.bind hdn (f := fun s => (.ok s : Verif.M (HSS K)))
    (g := fun t => (.ok ((t.xp, t.yp), (u.dphi, u.denergy)) : Verif.M ((List (List K) × List (List K)) × (List K × List K))))
    (Q := fun s t => (s.xp, s.yp) = t.1 ∧ (∀ b C, rd h b = .ok C → b ≠ dp → b ≠ de → rd s.h b = .ok C) ∧
        LeftIn s.h dp Dp t.2.1 ∧ LeftIn s.h de De t.2.2) ?_
  · have hb : ∀ y : Verif.M (HSS K), (y >>= fun s => (.ok s : Verif.M (HSS K))) = y := by
      intro y; cases y <;> rfl
    rw [hb] at key
    rw [hR.xp] at key
    exact key
  · intro w t hRw
    have keep : ∀ b C, rd h b = .ok C → ∀ D, rd s.h b = .ok D → rd w.h b = .ok D := by
      intro b C hb D hD
      have hlt := rd_lt hb
      refine hRw.mem.table hD ?_
      simp only [List.mem_cons, List.not_mem_nil, or_false, not_or]
      omega
    refine Sim.ok ⟨by rw [hRw.xp, hRw.yp], fun b C hb b1 b2 => keep _ _ hb _ (inert _ _ (c3 _ _ hb) b1 b2), ?_, ?_⟩
    · exact keep _ _ hdp.1 _ L1
    · exact keep _ _ hde.1 _ L2

end
end Verif.StepT
