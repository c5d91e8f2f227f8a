import Verif.Lemmas.Omp

/-!
# The loops over several bunches, run by one thread
-/

set_option linter.unusedSectionVars false

namespace Verif.Omp
open Verif.Par Verif.Spec Verif.Recon Verif.Track

/-- the thread `p` does to the memory what `f` does to the state related to it -/
def Follows {α β : Type} (R : Memory α → β → Prop) (p : Thread α) (f : β → M β) : Prop :=
  ∀ m b b', R m b → f b = .ok b' → R (p.run m) b'

theorem follows_for {α β : Type} {R : Memory α → β → Prop} {n : Nat} {body : Nat → Thread α} {f : Nat → β → M β}
    (h : ∀ i, i < n → Follows R (body i) (f i)) : Follows R (Prog.for' n body) (forN n f) := by
  intro m b b' hm hf
  induction n generalizing b' with
  | zero => cases hf; exact hm
  | succ n ih =>
    rw [forN_succ, Asrt.bind_ok_iff] at hf
    obtain ⟨b1, h1, h2⟩ := hf
    rw [Prog.run_for_succ]
    exact h n (by omega) _ _ _ (ih (fun i hi => h i (by omega)) b1 h1) h2

theorem forN_append {σ : Type} (a b : Nat) (f : Nat → σ → M σ) (s : σ) :
    forN (a + b) f s = forN a f s >>= forN b fun k => f (a + k) := by
  induction b with
  | zero => cases h : forN a f s <;> simp [forN]
  | succ b ih =>
    rw [← add_assoc, forN_succ, ih]
    cases forN a f s with
    | error e => rfl
    | ok s1 => rw [bind_ok, bind_ok, forN_succ]

/-- two nested loops as one -/
theorem forN_collapse {σ : Type} (a b : Nat) (g : Nat → Nat → σ → M σ) (s : σ) :
    forN (a * b) (fun k => g (k / b) (k % b)) s = forN a (fun i => forN b (g i)) s := by
  induction a with
  | zero => rw [Nat.zero_mul]; rfl
  | succ a ih =>
    rw [Nat.succ_mul, forN_append, ih, forN_succ]
    congr 1
    funext s1
    apply forN_congr
    intro k s2 hk
    rw [show (a * b + k) / b = a by
      rw [mul_comm, Nat.mul_add_div (by omega), Nat.div_eq_of_lt hk, add_zero],
      show (a * b + k) % b = k by rw [mul_comm, Nat.mul_add_mod, Nat.mod_eq_of_lt hk]]

/-- three nested loops as one -/
theorem forN_collapse3 {σ : Type} (a b c : Nat) (g : Nat → Nat → Nat → σ → M σ) (s : σ) :
    forN (a * (b * c)) (fun k => g (k / (b * c)) (k / c % b) (k % c)) s =
      forN a (fun i => forN b (fun j => forN c (g i j))) s := by
  have e : forN a (fun i => forN b (fun j => forN c (g i j))) s =
      forN a (fun i => forN (b * c) (fun k => g i (k / c) (k % c))) s := by
    apply forN_congr
    intro i s1 _
    rw [forN_collapse b c (g i)]
  rw [e, ← forN_collapse a (b * c) (fun i k => g i (k / c) (k % c))]
  apply forN_congr
  intro k s1 _
  rw [show k % (b * c) / c = k / c % b by rw [mul_comm, Nat.mod_mul_right_div_self],
    show k % (b * c) % c = k % c by rw [Nat.mod_mul_left_mod]]

section
variable {α : Type} [Add α] [Sub α] [Mul α] [Zero α] [One α] [NatCast α] [IntCast α]
  [LT α] [LE α] [DecidableLT α] [DecidableLE α] [DecidableEq α] [FDiv α]

/-! ## create_mask -/

/-- the mask and nothing else but the scalar `bin` has changed -/
def MaskRel (m₀ m : Memory α) (l : List Bool) : Prop :=
  (∀ x, (∀ i, x ≠ .mask i) → x ≠ .int .bin 0 → m x = m₀ x) ∧ Stores (fun i => m (.mask i)) l

theorem mask_update {m₀ m : Memory α} {l l' : List Bool} {i : Int} (h : MaskRel m₀ m l) (hu : upd l i false = .ok l') :
    MaskRel m₀ (Function.update m (.mask i) false : Memory α) l' := by
  refine ⟨fun x hx hx' => ?_, ?_⟩
  · rw [Function.update_of_ne (hx i)]; exact h.1 x hx hx'
  · have : (fun j => (Function.update m (.mask i) false : Memory α) (.mask j)) = Function.update (fun j => m (.mask j)) i false := by
      funext j
      by_cases e : j = i
      · subst e; simp
      · rw [Function.update_of_ne e, Function.update_of_ne (by simpa using e)]
    rw [this]
    exact stores_upd h.2 hu

theorem mask_bin {m₀ m : Memory α} {l : List Bool} (v : Int) (h : MaskRel m₀ m l) :
    MaskRel m₀ (Function.update m (.int .bin 0) v : Memory α) l := by
  refine ⟨fun x hx hx' => ?_, ?_⟩
  · rw [Function.update_of_ne hx']; exact h.1 x hx hx'
  · intro i v' hv
    have := h.2 i v' hv
    simpa using this

theorem createMask_serial {npart nprof ncenter : Nat} {m₀ : Memory α} {xp cs cl cr : List Int} {l l' : List Bool}
    (hx : Stores (ints m₀ .coords) xp) (hcs : Stores (ints m₀ .centers) cs) (hcl : Stores (ints m₀ .cutleft) cl)
    (hcr : Stores (ints m₀ .cutright) cr) (hl : Stores (fun i => m₀ (.mask i)) l)
    (h : Multi.createMask xp cs cl cr l npart nprof ncenter = .ok l') :
    MaskRel m₀ (serialFor (ncenter * (npart * nprof)) (createMaskBody npart nprof) m₀) l' := by
  unfold Multi.createMask at h
  rw [← forN_collapse3 ncenter npart nprof (fun c i j m => do
    let v ← rd xp ((i * nprof + j : Nat) : Int)
    let ctr ← rd cs (c : Int)
    let cl ← rd cl (c : Int)
    let cr ← rd cr (c : Int)
    if v + ctr < cl ∨ cr < v + ctr then upd m ((i + c * npart : Nat) : Int) false else pure m) l] at h
  refine follows_for (R := MaskRel m₀) ?_ m₀ l l' ⟨fun _ _ _ => rfl, hl⟩ h
  intro k _ m b b' hm hu
  set c := k / (npart * nprof) with hc
  set i := k / nprof % npart with hi
  set j := k % nprof with hj
  simp only [Asrt.bind_ok_iff] at hu
  obtain ⟨v, hv, ctr, hctr, x, hx', y, hy, hu⟩ := hu
  have e1 : m (.int .coords ((i * nprof + j : Nat) : Int)) = v := by
    rw [hm.1 _ (by simp) (by simp)]; exact hx _ _ hv
  have e2 : m (.int .centers (c : Int)) = ctr := by rw [hm.1 _ (by simp) (by simp)]; exact hcs _ _ hctr
  have e3 : m (.int .cutleft (c : Int)) = x := by rw [hm.1 _ (by simp) (by simp)]; exact hcl _ _ hx'
  have e4 : m (.int .cutright (c : Int)) = y := by rw [hm.1 _ (by simp) (by simp)]; exact hcr _ _ hy
  have hm' := mask_bin (v + ctr) hm
  set m' : Memory α := Function.update m (.int .bin 0) (v + ctr) with hm'e
  have b0 : m' (.int .bin 0) = v + ctr := Function.update_self ..
  have e3' : m' (.int .cutleft (c : Int)) = x := by rw [hm'e, Function.update_of_ne (by simp)]; exact e3
  have e4' : m' (.int .cutright (c : Int)) = y := by rw [hm'e, Function.update_of_ne (by simp)]; exact e4
  unfold createMaskBody
  rw [run_ldi e1, run_ldi e2, run_sti, run_ldi b0, run_ldi e3']
  by_cases h1 : v + ctr < x
  · rw [if_pos h1]
    rw [if_pos (Or.inl h1)] at hu
    exact mask_update hm' hu
  · rw [if_neg h1, run_ldi b0, run_ldi e4']
    by_cases h2 : y < v + ctr
    · rw [if_pos h2]
      rw [if_pos (Or.inr h2)] at hu
      exact mask_update hm' hu
    · rw [if_neg h2]
      rw [if_neg (by tauto)] at hu
      cases hu
      exact hm'

/-! ## count_particles_in_bin_multi -/

/-- the array `a` and nothing else but the scalar `bin` has changed -/
def CountRel (m₀ m : Memory α) (l : List α) : Prop :=
  (∀ x, (∀ i, x ≠ .real .rparts i) → x ≠ .int .bin 0 → m x = m₀ x) ∧ Stores (reals m .rparts) l

theorem countMulti_serial {npart nprof nbins ncenter : Nat} {m₀ : Memory α} {xp cs : List Int} {l l' : List α}
    (hx : Stores (ints m₀ .coords) xp) (hcs : Stores (ints m₀ .centers) cs) (hl : Stores (reals m₀ .rparts) l)
    (h : Multi.countMulti l xp cs nprof npart nbins ncenter = .ok l') :
    CountRel m₀ (serialFor ncenter (countMultiBody nprof npart nbins) m₀) l' := by
  unfold Multi.countMulti at h
  refine follows_for (R := CountRel m₀) ?_ m₀ l l' ⟨fun _ _ _ => rfl, hl⟩ h
  intro c _
  apply follows_for
  intro j _
  apply follows_for
  intro i _ m b b' hm hu
  simp only [Asrt.bind_ok_iff] at hu
  obtain ⟨v, hv, ctr, hctr, n, hn, hu⟩ := hu
  have e1 : m (.int .coords ((j * nprof + i : Nat) : Int)) = v := by
    rw [hm.1 _ (by simp) (by simp)]; exact hx _ _ hv
  have e2 : m (.int .centers (c : Int)) = ctr := by rw [hm.1 _ (by simp) (by simp)]; exact hcs _ _ hctr
  set m' : Memory α := Function.update m (.int .bin 0) (v + ctr) with hm'e
  have b0 : m' (.int .bin 0) = v + ctr := Function.update_self ..
  have e3 : m' (.real .rparts (v + ctr + (i * nbins : Nat))) = n := by
    rw [hm'e, Function.update_of_ne (by simp)]; exact hm.2 _ _ hn
  rw [run_ldi e1, run_ldi e2, run_sti, run_ldi b0, run_ld e3, run_st]
  refine ⟨fun x hx hx' => ?_, ?_⟩
  · change (Function.update m' _ _ : Memory α) x = _
    rw [Function.update_of_ne (hx _), hm'e, Function.update_of_ne hx']
    exact hm.1 x hx hx'
  · change Stores (reals (Function.update m' _ _ : Memory α) .rparts) b'
    rw [reals_update]
    refine stores_upd ?_ hu
    intro k w hk
    have := hm.2 k w hk
    simpa [reals, hm'e] using this

/-! ## back_project_multi, project_multi -/

theorem backProjectMulti_serial {npart nprof ncenter : Nat} {m₀ : Memory α} {ws ws' pf : List α} {fp cs : List Int} {mask : List Bool}
    (hm0 : Stores (fun i => m₀ (.mask i)) mask) (hp : Stores (ints m₀ .points) fp) (hcs : Stores (ints m₀ .centers) cs)
    (hf : Stores (reals m₀ .profiles) pf) (hw : Stores (reals m₀ .weights) ws)
    (h : Multi.backProjectMulti ws fp pf mask cs npart nprof ncenter = .ok ws') :
    OnlyArray .weights m₀ (serialFor (ncenter * (npart * nprof)) (backProjectMultiBody npart nprof) m₀) ∧
    Stores (reals (serialFor (ncenter * (npart * nprof)) (backProjectMultiBody npart nprof) m₀) .weights) ws' := by
  unfold Multi.backProjectMulti at h
  rw [← forN_collapse3 ncenter npart nprof (fun c i j ws => do
    let m ← rd mask ((i + c * npart : Nat) : Int)
    if m then do
      let fp ← rd fp ((i * nprof + j : Nat) : Int)
      let ctr ← rd cs (c : Int)
      let v ← rd pf (fp + ctr)
      let w ← rd ws ((i + c * npart : Nat) : Int)
      upd ws ((i + c * npart : Nat) : Int) (w + v)
    else pure ws) ws] at h
  refine sim_for (a := .weights) ?_ m₀ ws ws' (only_refl _ _) hw h
  intro k _ m l l' hm hl hu
  set c := k / (npart * nprof) with hc
  set i := k / nprof % npart with hi
  set j := k % nprof with hj
  rw [Asrt.bind_ok_iff] at hu
  obtain ⟨b, hb, hu⟩ := hu
  have e0 : m (.mask ((i + c * npart : Nat) : Int)) = b := by rw [hm _ (by simp)]; exact hm0 _ _ hb
  unfold backProjectMultiBody
  cases b with
  | false =>
    cases hu
    have : (Prog.load (.mask ((i + c * npart : Nat) : Int)) fun b : Bool =>
        if b then
          ldi .points ((i * nprof + j : Nat) : Int) fun fp => ldi .centers (c : Int) fun ctr => ld .profiles (fp + ctr) fun v =>
          ld .weights ((i + c * npart : Nat) : Int) fun w => st .weights ((i + c * npart : Nat) : Int) (w + v) .done
        else .done : Thread α).run m = m := by
      change (if m (.mask ((i + c * npart : Nat) : Int)) then _ else _ : Thread α).run m = m
      rw [e0]; rfl
    rw [this]
    exact ⟨hm, hl⟩
  | true =>
    simp only [if_true, Asrt.bind_ok_iff] at hu
    obtain ⟨q, hq, z, hz, v, hv, w, hww, hu⟩ := hu
    have e1 : m (.int .points ((i * nprof + j : Nat) : Int)) = q := by rw [only_int hm]; exact hp _ _ hq
    have e2 : m (.int .centers (c : Int)) = z := by rw [only_int hm]; exact hcs _ _ hz
    have e3 : m (.real .profiles (q + z)) = v := by rw [only_real hm (by decide)]; exact hf _ _ hv
    have e4 : m (.real .weights ((i + c * npart : Nat) : Int)) = w := hl _ _ hww
    have : (Prog.load (.mask ((i + c * npart : Nat) : Int)) fun b : Bool =>
        if b then
          ldi .points ((i * nprof + j : Nat) : Int) fun fp => ldi .centers (c : Int) fun ctr => ld .profiles (fp + ctr) fun v =>
          ld .weights ((i + c * npart : Nat) : Int) fun w => st .weights ((i + c * npart : Nat) : Int) (w + v) .done
        else .done : Thread α).run m = (st .weights ((i + c * npart : Nat) : Int) (w + v) .done : Thread α).run m := by
      change (if m (.mask ((i + c * npart : Nat) : Int)) then _ else _ : Thread α).run m = _
      rw [e0, if_pos rfl, run_ldi e1, run_ldi e2, run_ld e3, run_ld e4]
    rw [this]
    exact sim_store hm hl hu

theorem projectMulti_serial {npart nprof ncenter : Nat} {m₀ : Memory α} {rc rc' ws : List α} {fp cs : List Int}
    (hr : Stores (reals m₀ .recon) rc) (hp : Stores (ints m₀ .points) fp) (hcs : Stores (ints m₀ .centers) cs)
    (hw : Stores (reals m₀ .weights) ws) (h : Multi.projectMulti rc fp ws cs npart nprof ncenter = .ok rc') :
    OnlyArray .recon m₀ (serialFor ncenter (projectMultiBody npart nprof) m₀) ∧
    Stores (reals (serialFor ncenter (projectMultiBody npart nprof) m₀) .recon) rc' := by
  unfold Multi.projectMulti at h
  refine sim_for (a := .recon) ?_ m₀ rc rc' (only_refl _ _) hr h
  intro c _
  apply sim_for
  intro i _
  apply sim_for
  intro j _ m l l' hm hl hu
  simp only [Asrt.bind_ok_iff] at hu
  obtain ⟨q, hq, z, hz, r, hr, w, hww, hu⟩ := hu
  have e1 : m (.int .points ((i * nprof + j : Nat) : Int)) = q := by rw [only_int hm]; exact hp _ _ hq
  have e2 : m (.int .centers (c : Int)) = z := by rw [only_int hm]; exact hcs _ _ hz
  have e3 : m (.real .recon (q + z)) = r := hl _ _ hr
  have e4 : m (.real .weights ((i + c * npart : Nat) : Int)) = w := by
    rw [only_real hm (by decide)]; exact hw _ _ hww
  rw [run_ldi e1, run_ldi e2, run_ld e3, run_ld e4]
  exact sim_store hm hl hu

/-! ## discrepancy_multi -/

/-- discrepancies and running sum -/
def DiscRel (m₀ m : Memory α) (s : List α × α) : Prop :=
  (∀ x, (∀ i, x ≠ .real .disc i) → x ≠ .real .squaredSum 0 → m x = m₀ x) ∧ Stores (reals m .disc) s.1 ∧
    m (.real .squaredSum 0) = s.2

theorem discrepancyMulti_serial {sqrt : α → α} {iteration nprof nbins ncenter : Nat} {m₀ : Memory α} {df ds ds' : List α}
    {cl cr : List Int} (hd : Stores (reals m₀ .diff) df) (hs : Stores (reals m₀ .disc) ds) (hcl : Stores (ints m₀ .cutleft) cl)
    (hcr : Stores (ints m₀ .cutright) cr) (h0 : m₀ (.real .squaredSum 0) = 0)
    (h : Multi.discrepancyMulti sqrt df ds cl cr iteration nprof nbins ncenter = .ok ds') :
    Stores (reals (serialFor ncenter (discrepancyMultiBody sqrt iteration nprof nbins ncenter) m₀) .disc) ds' := by
  unfold Multi.discrepancyMulti at h
  rw [Asrt.bind_ok_iff] at h
  obtain ⟨s, h, hs'⟩ := h
  cases hs'
  refine (follows_for (R := DiscRel m₀) ?_ m₀ (ds, 0) s ⟨fun _ _ _ => rfl, hs, h0⟩ h).2.1
  intro c _ m b b' hm hu
  simp only [Asrt.bind_ok_iff] at hu
  obtain ⟨x, hx, y, hy, t, ht, q, hq, d, hd', hu⟩ := hu
  cases hu
  have ec : ∀ m : Memory α, (∀ x, (∀ i, x ≠ .real .disc i) → x ≠ .real .squaredSum 0 → m x = m₀ x) →
      m (.int .cutleft (c : Int)) = x ∧ m (.int .cutright (c : Int)) = y := by
    intro m hm
    exact ⟨by rw [hm _ (by simp) (by simp)]; exact hcl _ _ hx, by rw [hm _ (by simp) (by simp)]; exact hcr _ _ hy⟩
  have step := follows_for (R := fun m s => DiscRel m₀ m (b.1, s)) (n := nprof * nbins)
    (body := fun i => ldi .cutright (c : Int) fun cr => ldi .cutleft (c : Int) fun cl =>
      if (i : Int) < cr ∧ cl < (i : Int) then
        ld .diff (i : Int) fun d => ld .squaredSum 0 fun s => st .squaredSum 0 (s + d * d) .done
      else .done) (f := Multi.splitAdd df x y) (by
    intro i _ m b1 b2 hm hu
    obtain ⟨e1, e2⟩ := ec m hm.1
    rw [run_ldi e2, run_ldi e1]
    unfold Multi.splitAdd at hu
    split at hu
    · rename_i hc
      rw [if_pos hc]
      rw [Asrt.bind_ok_iff] at hu
      obtain ⟨d, hd1, hu⟩ := hu
      cases hu
      have e3 : m (.real .diff (i : Int)) = d := by rw [hm.1 _ (by simp) (by simp)]; exact hd _ _ hd1
      rw [run_ld e3, run_ld hm.2.2, run_st]
      refine ⟨fun z hz hz' => ?_, ?_, ?_⟩
      · change (Function.update m _ _ : Memory α) z = _
        rw [Function.update_of_ne hz']; exact hm.1 z hz hz'
      · intro k w hk
        have := hm.2.1 k w hk
        change (Function.update m _ _ : Memory α) (.real .disc k) = w
        rw [Function.update_of_ne (by simp)]; exact this
      · change (Function.update m _ _ : Memory α) (.real .squaredSum 0) = _
        rw [Function.update_self]
    · rename_i hc
      rw [if_neg hc]
      cases hu
      exact hm) m b.2 t hm ht
  unfold discrepancyMultiBody
  rw [Prog.run_seq]
  set m1 := (Prog.for' (nprof * nbins) fun i => ldi .cutright (c : Int) fun cr => ldi .cutleft (c : Int) fun cl =>
      if (i : Int) < cr ∧ cl < (i : Int) then
        ld .diff (i : Int) fun d => ld .squaredSum 0 fun s => st .squaredSum 0 (s + d * d) .done
      else .done : Thread α).run m with hm1
  obtain ⟨e1, e2⟩ := ec m1 step.1
  rw [run_ldi e2, run_ldi e1, run_ld step.2.2]
  simp only [quot, hq]
  rw [run_st]
  refine ⟨fun z hz hz' => ?_, ?_, ?_⟩
  · change (Function.update m1 _ _ : Memory α) z = _
    rw [Function.update_of_ne (hz _)]; exact step.1 z hz hz'
  · change Stores (reals (Function.update m1 _ _ : Memory α) .disc) d
    rw [reals_update]
    exact stores_upd step.2.1 hd'
  · change (Function.update m1 _ _ : Memory α) (.real .squaredSum 0) = _
    rw [Function.update_of_ne (by simp)]; exact step.2.2

end

end Verif.Omp
