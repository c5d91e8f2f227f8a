import Verif.Lemmas.Rnd
import Verif.Spec.Rnd
import Mathlib.Algebra.BigOperators.Intervals
import Mathlib.Algebra.BigOperators.Field
import Mathlib.Tactic.GCongr

/-!
# Invariants of the reconstruction in rounded arithmetic: signs, and profiles that sum to one up to the accuracy
-/

namespace Verif.Rounded
open Finset

/-- no negative element -/
def Nonneg (l : List ℝ) : Prop := ∀ k, 0 ≤ l.getD k 0

theorem rd_getD {l : List ℝ} {i : Int} {v : ℝ} (h : Verif.rd l i = .ok v) : v = l.getD i.toNat 0 := by
  obtain ⟨_, hg⟩ := rd_ok h
  rw [List.getD_eq_getElem?_getD, hg]; rfl

theorem upd_getD {l l' : List ℝ} {i : Int} {v : ℝ} (h : Verif.upd l i v = .ok l') :
    (l'.length = l.length) ∧ ∀ k, l'.getD k 0 = if k = i.toNat then v else l.getD k 0 := by
  unfold Verif.upd at h
  split at h
  · next hi =>
    cases h
    refine ⟨by simp, fun k => ?_⟩
    by_cases hk : k = i.toNat
    · subst hk
      simp [List.getD_eq_getElem?_getD, hi.2]
    · rw [if_neg hk, List.getD_eq_getElem?_getD, List.getD_eq_getElem?_getD, List.getElem?_set_ne (Ne.symm hk)]
  · cases h

theorem Nonneg.upd {l l' : List ℝ} {i : Int} {v : ℝ} (hl : Nonneg l) (hv : 0 ≤ v) (h : Verif.upd l i v = .ok l') : Nonneg l' := by
  intro k
  rw [(upd_getD h).2 k]
  split
  · exact hv
  · exact hl k

theorem bind_split {A B : Type} {x : M A} {f : A → M B} {b : B} (h : x >>= f = .ok b) : ∃ a, x = .ok a ∧ f a = .ok b := by
  cases x with
  | error e => cases h
  | ok a => exact ⟨a, rfl, h⟩

variable {w : World} {u : ℝ}

theorem clip_nonneg {a b : List ℝ} {n : ℕ} (hl : a.length = n)
    (h : (Recon.clip (α := Rn w) a n 0 : M (List (Rn w))) = .ok b) : b.length = n ∧ Nonneg b := by
  unfold Recon.clip at h
  have := forN_post (σ := List ℝ) (fun i (l : List ℝ) => l.length = n ∧ ∀ k, k < i → 0 ≤ l.getD k 0) ⟨hl, fun k hk => absurd hk (by omega)⟩
    (fun i s s' hi hs he => by
      obtain ⟨v, h1, h2⟩ := bind_split (A := ℝ) he
      have hv := rd_getD h1
      simp only [Int.toNat_natCast] at hv
      have h2' : (if (v : ℝ) < 0 then Verif.upd s (i : Int) (0 : ℝ) else pure s) = .ok s' := h2
      split at h2'
      · have := upd_getD h2'
        refine ⟨this.1.trans hs.1, fun k hk => ?_⟩
        rw [this.2 k]
        split
        · exact le_rfl
        · next hne => exact hs.2 k (by simp at hne; omega)
      · next hnn =>
        cases h2'
        refine ⟨hs.1, fun k hk => ?_⟩
        by_cases hki : k = i
        · subst hki; rw [← hv]; exact not_lt.mp hnn
        · exact hs.2 k (by omega)) h
  refine ⟨this.1, fun k => ?_⟩
  by_cases hk : k < n
  · exact this.2 k hk
  · rw [List.getD_eq_getElem?_getD, List.getElem?_eq_none (by omega)]
    exact le_rfl

theorem backProject_length {W P : List ℝ} {fp : List Int} {npart nprof : ℕ} {W' : List ℝ}
    (h : (Recon.backProject (α := Rn w) W fp P npart nprof : M (List (Rn w))) = .ok W') : W'.length = W.length := by
  unfold Recon.backProject at h
  refine forN_post (σ := List ℝ) (fun _ (l : List ℝ) => l.length = W.length) rfl (fun i s s' _ hs he => ?_) h
  refine forN_post (σ := List ℝ) (fun _ (l : List ℝ) => l.length = W.length) hs (fun j t t' _ ht he => ?_) he
  obtain ⟨f, _, h2⟩ := bind_split he
  obtain ⟨v, _, h4⟩ := bind_split h2
  obtain ⟨x, _, h6⟩ := bind_split h4
  exact (upd_getD h6).1.trans ht

theorem project_nonneg (hw : w.Accurate u) (hu : u ≤ 1) {F W : List ℝ} {fp : List Int} {npart nprof : ℕ} (hF : Nonneg F) (hW : Nonneg W) {F' : List ℝ}
    (h : (Recon.project (α := Rn w) F fp W npart nprof : M (List (Rn w))) = .ok F') : F'.length = F.length ∧ Nonneg F' := by
  unfold Recon.project at h
  refine forN_post (σ := List ℝ) (fun _ (l : List ℝ) => l.length = F.length ∧ Nonneg l) ⟨rfl, hF⟩ (fun i s s' _ hs he => ?_) h
  refine forN_post (σ := List ℝ) (fun _ (l : List ℝ) => l.length = F.length ∧ Nonneg l) hs (fun j t t' _ ht he => ?_) he
  obtain ⟨f, _, h2⟩ := bind_split he
  obtain ⟨v, h3, h4⟩ := bind_split h2
  obtain ⟨x, h5, h6⟩ := bind_split h4
  refine ⟨(upd_getD h6).1.trans ht.1, ht.2.upd ?_ h6⟩
  refine rnd_nonneg hw hu (add_nonneg ?_ ?_)
  · rw [rd_getD h3]; exact ht.2 _
  · rw [rd_getD h5]; exact hW _

theorem rnd_bounds (hw : w.Accurate u) {x : ℝ} (hx : 0 ≤ x) : (1 - u) * x ≤ w.rnd x ∧ w.rnd x ≤ (1 + u) * x := by
  have := abs_le.mp (hw.rnd x)
  rw [abs_of_nonneg hx] at this
  constructor <;> nlinarith [this.1, this.2]

theorem rowSum_bounds (hw : w.Accurate u) (h0 : 0 ≤ u) (hu : u ≤ 1) {l : List ℝ} (hl : Nonneg l) (i nbins : ℕ) {S : ℝ}
    (h : (Verif.forN nbins (fun j (s : Rn w) => do
      let v ← Verif.rd (α := Rn w) l ((i * nbins + j : ℕ) : Int)
      pure (s + v)) (0 : Rn w) : M (Rn w)) = .ok S) :
    (1 - u) ^ nbins * rowTotal l nbins i ≤ S ∧ S ≤ (1 + u) ^ nbins * rowTotal l nbins i := by
  refine forN_post (σ := ℝ) (fun k (s : ℝ) => (1 - u) ^ k * ∑ j ∈ range k, l.getD (i * nbins + j) 0 ≤ s ∧
    s ≤ (1 + u) ^ k * ∑ j ∈ range k, l.getD (i * nbins + j) 0) (by simp only [pow_zero, range_zero, sum_empty, mul_zero]; exact ⟨le_refl (0 : ℝ), le_refl (0 : ℝ)⟩)
    (fun k s s' _ hs he => ?_) h
  obtain ⟨v, h1, h2⟩ := bind_split (A := ℝ) he
  have hv := rd_getD h1
  simp only [Int.toNat_natCast] at hv
  have e : s' = w.rnd (s + v) := (Except.ok.inj h2).symm
  have hA : 0 ≤ ∑ j ∈ range k, l.getD (i * nbins + j) 0 := sum_nonneg fun j _ => hl _
  have hv0 : 0 ≤ v := by rw [hv]; exact hl _
  have h1u : 0 ≤ 1 - u := by linarith
  have hs0 : 0 ≤ s := le_trans (mul_nonneg (pow_nonneg h1u k) hA) hs.1
  obtain ⟨b1, b2⟩ := rnd_bounds hw (add_nonneg hs0 hv0)
  rw [sum_range_succ, ← hv, e]
  have p1 : (1 - u) ^ k ≤ 1 := pow_le_one₀ h1u (by linarith)
  have p2 : 1 ≤ (1 + u) ^ k := one_le_pow₀ (by linarith)
  constructor
  · refine le_trans ?_ b1
    rw [pow_succ', mul_assoc]
    refine mul_le_mul_of_nonneg_left ?_ h1u
    rw [mul_add]
    exact add_le_add hs.1 (mul_le_of_le_one_left hv0 p1)
  · refine le_trans b2 ?_
    rw [pow_succ', mul_assoc]
    refine mul_le_mul_of_nonneg_left ?_ (by linarith)
    rw [mul_add]
    exact add_le_add hs.2 (le_mul_of_one_le_left hv0 p2)

/-- one row of `normalize` divided -/
theorem divRow {l l' : List ℝ} {S : ℝ} {nbins i : ℕ}
    (h : (Verif.forN nbins (fun j (rec : List (Rn w)) => do
        let v ← Verif.rd rec ((i * nbins + j : ℕ) : Int)
        let q ← FDiv.fdiv v (S : Rn w)
        Verif.upd rec ((i * nbins + j : ℕ) : Int) q) (l : List (Rn w)) : M (List (Rn w))) = .ok l') :
    l'.length = l.length ∧ (0 < nbins → S ≠ 0) ∧ (∀ j, j < nbins → l'.getD (i * nbins + j) 0 = w.rnd (l.getD (i * nbins + j) 0 / S)) ∧
      ∀ k, (∀ j, j < nbins → k ≠ i * nbins + j) → l'.getD k 0 = l.getD k 0 := by
  have := forN_post (σ := List ℝ) (fun n (r : List ℝ) => r.length = l.length ∧ (0 < n → S ≠ 0) ∧
      (∀ j, j < n → r.getD (i * nbins + j) 0 = w.rnd (l.getD (i * nbins + j) 0 / S)) ∧
      ∀ k, (∀ j, j < n → k ≠ i * nbins + j) → r.getD k 0 = l.getD k 0)
    ⟨rfl, fun h => absurd h (by omega), fun j hj => absurd hj (by omega), fun _ _ => rfl⟩
    (fun n r r' _ hr he => by
      obtain ⟨v, h1, h2⟩ := bind_split (A := ℝ) he
      obtain ⟨q, h3, h4⟩ := bind_split (A := ℝ) h2
      have hv := rd_getD h1
      simp only [Int.toNat_natCast] at hv
      have hq : (if S = 0 then (.error .nonFinite : M ℝ) else .ok (w.rnd (v / S))) = .ok q := h3
      split at hq
      · cases hq
      next hS =>
      have eq : q = w.rnd (v / S) := (Except.ok.inj hq).symm
      obtain ⟨g1, g2⟩ := upd_getD h4
      simp only [Int.toNat_natCast] at g2
      refine ⟨g1.trans hr.1, fun _ => hS, fun j hj => ?_, fun k hk => ?_⟩
      · rw [g2]
        by_cases hjn : j = n
        · subst hjn
          rw [if_pos rfl, eq, hv, hr.2.2.2 _ fun j' hj' => by omega]
        · rw [if_neg (by omega)]
          exact hr.2.2.1 j (by omega)
      · rw [g2, if_neg (hk n (by omega))]
        exact hr.2.2.2 k fun j hj => hk j (by omega)) h
  exact this

theorem row_sumsToOne (hw : w.Accurate u) (h0 : 0 ≤ u) (hu : u < 1) {l : List ℝ} (hl : Nonneg l) {nbins i : ℕ} {S : ℝ}
    (hS : (1 - u) ^ nbins * rowTotal l nbins i ≤ S ∧ S ≤ (1 + u) ^ nbins * rowTotal l nbins i) (hS0 : S ≠ 0) :
    SumsToOne u nbins (∑ j ∈ range nbins, w.rnd (l.getD (i * nbins + j) 0 / S)) := by
  have hA : 0 ≤ rowTotal l nbins i := sum_nonneg fun j _ => hl _
  have hSpos : 0 < S := lt_of_le_of_ne (le_trans (mul_nonneg (pow_nonneg (by linarith) _) hA) hS.1) (Ne.symm hS0)
  have e : ∑ j ∈ range nbins, l.getD (i * nbins + j) 0 / S = rowTotal l nbins i / S := by
    rw [rowTotal, sum_div]
  have b1 : (1 - u) * (rowTotal l nbins i / S) ≤ ∑ j ∈ range nbins, w.rnd (l.getD (i * nbins + j) 0 / S) := by
    rw [← e, mul_sum]
    exact sum_le_sum fun j _ => (rnd_bounds hw (div_nonneg (hl _) hSpos.le)).1
  have b2 : ∑ j ∈ range nbins, w.rnd (l.getD (i * nbins + j) 0 / S) ≤ (1 + u) * (rowTotal l nbins i / S) := by
    rw [← e, mul_sum]
    exact sum_le_sum fun j _ => (rnd_bounds hw (div_nonneg (hl _) hSpos.le)).2
  have c1 : 1 ≤ (1 + u) ^ nbins * (rowTotal l nbins i / S) := by
    rw [← mul_div_assoc, le_div_iff₀ hSpos, one_mul]; exact hS.2
  have c2 : (1 - u) ^ nbins * (rowTotal l nbins i / S) ≤ 1 := by
    rw [← mul_div_assoc, div_le_iff₀ hSpos, one_mul]; exact hS.1
  constructor
  · calc 1 - u ≤ (1 - u) * ((1 + u) ^ nbins * (rowTotal l nbins i / S)) := le_mul_of_one_le_right (by linarith) c1
      _ = (1 + u) ^ nbins * ((1 - u) * (rowTotal l nbins i / S)) := by ring
      _ ≤ _ := mul_le_mul_of_nonneg_left b1 (pow_nonneg (by linarith) _)
  · calc _ ≤ (1 - u) ^ nbins * ((1 + u) * (rowTotal l nbins i / S)) := mul_le_mul_of_nonneg_left b2 (pow_nonneg (by linarith) _)
      _ = (1 + u) * ((1 - u) ^ nbins * (rowTotal l nbins i / S)) := by ring
      _ ≤ 1 + u := mul_le_of_le_one_right (by linarith) c2

theorem normalize_rows_one (hw : w.Accurate u) (h0 : 0 ≤ u) (hu : u < 1) {l l' : List ℝ} (hl : Nonneg l) {nprof nbins : ℕ} (hb : 0 < nbins)
    (h : (Recon.normalize (α := Rn w) l nprof nbins : M (List (Rn w))) = .ok l') :
    l'.length = l.length ∧ Nonneg l' ∧ ∀ p, p < nprof → SumsToOne u nbins (rowTotal l' nbins p) := by
  unfold Recon.normalize at h
  obtain ⟨⟨r, s⟩, h1, h2⟩ := bind_split (A := List ℝ × ℝ) h
  have h2' : (if (s : ℝ) ≤ 0 then (.error (.exc .recZero) : M (List ℝ)) else .ok r) = .ok l' := h2
  split at h2'
  · cases h2'
  cases h2'
  have := forN_post (σ := List ℝ × ℝ) (fun i (st : List ℝ × ℝ) => st.1.length = l.length ∧ Nonneg st.1 ∧
      ∀ p, p < i → SumsToOne u nbins (rowTotal st.1 nbins p)) ⟨rfl, hl, fun p hp => absurd hp (by omega)⟩
    (fun i st st' _ hst he => by
      obtain ⟨S, g1, g2⟩ := bind_split (A := ℝ) he
      obtain ⟨q, g3, g4⟩ := bind_split (A := List ℝ) g2
      cases g4
      have bS := rowSum_bounds hw h0 hu.le hst.2.1 i nbins g1
      obtain ⟨d1, d2, d3, d4⟩ := divRow g3
      have hS0 := d2 hb
      have hSpos : 0 < S := lt_of_le_of_ne (le_trans (mul_nonneg (pow_nonneg (by linarith) _)
        (sum_nonneg fun j _ => hst.2.1 _)) bS.1) (Ne.symm hS0)
      refine ⟨d1.trans hst.1, fun k => ?_, fun p hp => ?_⟩
      · by_cases hk : ∃ j, j < nbins ∧ k = i * nbins + j
        · obtain ⟨j, hj, rfl⟩ := hk
          show 0 ≤ q.getD (i * nbins + j) 0
          rw [d3 j hj]
          exact rnd_nonneg hw hu.le (div_nonneg (hst.2.1 _) hSpos.le)
        · show 0 ≤ q.getD k 0
          rw [d4 k fun j hj hkj => hk ⟨j, hj, hkj⟩]
          exact hst.2.1 k
      · by_cases hpi : p = i
        · subst hpi
          have := row_sumsToOne hw h0 hu hst.2.1 bS hS0
          have e : rowTotal q nbins p = ∑ j ∈ range nbins, w.rnd (st.1.getD (p * nbins + j) 0 / S) :=
            sum_congr rfl fun j hj => d3 j (mem_range.mp hj)
          show SumsToOne u nbins (rowTotal q nbins p)
          rw [e]; exact this
        · have e : rowTotal q nbins p = rowTotal st.1 nbins p := by
            refine sum_congr rfl fun j hj => d4 _ fun j' hj' he => ?_
            have hj := mem_range.mp hj
            have e1 : (p * nbins + j) / nbins = p := by
              rw [mul_comm, Nat.mul_add_div hb, Nat.div_eq_of_lt hj, add_zero]
            have e2 : (i * nbins + j') / nbins = i := by
              rw [mul_comm, Nat.mul_add_div hb, Nat.div_eq_of_lt hj', add_zero]
            rw [he, e2] at e1
            exact hpi e1.symm
          show SumsToOne u nbins (rowTotal q nbins p)
          rw [e]
          exact hst.2.2 p (by omega)) h1
  exact this

/-- what holds of the arrays between the iterations -/
structure Sane (npart nrec : ℕ) (st : Recon.RState ℝ) : Prop where
  wlen : st.weights.length = npart
  wnn : Nonneg st.weights
  rlen : st.flatRec.length = nrec
  rnn : Nonneg st.flatRec

theorem firstStep_nonneg {W F : List ℝ} {fp : List Int} {npart nprof : ℕ} {W' : List ℝ} (hl : W.length = npart)
    (h : (Recon.firstStep (α := Rn w) W fp F npart nprof : M (List (Rn w))) = .ok W') : W'.length = npart ∧ Nonneg W' := by
  unfold Recon.firstStep at h
  obtain ⟨a, h1, h2⟩ := bind_split (A := List ℝ) h
  obtain ⟨b, h3, h4⟩ := bind_split (A := List ℝ) h2
  obtain ⟨s, h5, h6⟩ := bind_split (A := ℝ) h4
  have h6' : (if (s : ℝ) ≤ 0 then (.error (.exc .allZero) : M (List ℝ)) else .ok b) = .ok W' := h6
  split at h6'
  · cases h6'
  cases h6'
  exact clip_nonneg ((backProject_length h1).trans hl) h3

theorem iterBody_sane (hw : w.Accurate u) (h0 : 0 ≤ u) (hu : u < 1) {F R : List ℝ} {fp : List Int} {nbins npart nprof k nrec : ℕ}
    (hb : 0 < nbins) {st st' : Recon.RState ℝ} (hs : Sane npart nrec st)
    (h : (Recon.iterBody (α := Rn w) w.sqrt fp F R nbins npart nprof k st : M (Recon.RState (Rn w))) = .ok st') :
    Sane npart nrec st' := by
  unfold Recon.iterBody at h
  obtain ⟨a, h1, h⟩ := bind_split (A := List ℝ) h
  obtain ⟨b, h2, h⟩ := bind_split (A := List ℝ) h
  obtain ⟨c, h3, h⟩ := bind_split (A := List ℝ) h
  obtain ⟨d, h4, h⟩ := bind_split (A := ℝ) h
  obtain ⟨e, h5, h⟩ := bind_split (A := List ℝ) h
  obtain ⟨f, h6, h⟩ := bind_split (A := List ℝ) h
  obtain ⟨g, h7, h⟩ := bind_split (A := List ℝ) h
  obtain ⟨i, h8, h⟩ := bind_split (A := List ℝ) h
  obtain ⟨s, h9, h⟩ := bind_split (A := ℝ) h
  have h' : (if (s : ℝ) ≤ 0 then (.error (.exc .allZero) : M (Recon.RState ℝ)) else .ok ⟨i, b, e⟩) = .ok st' := h
  split at h'
  · cases h'
  cases h'
  obtain ⟨p1, p2⟩ := project_nonneg hw hu.le hs.rnn hs.wnn h1
  obtain ⟨n1, n2, _⟩ := normalize_rows_one hw h0 hu p2 hb h2
  obtain ⟨c1, c2⟩ := clip_nonneg ((backProject_length h7).trans hs.wlen) h8
  exact ⟨c1, c2, n1.trans (p1.trans hs.rlen), n2⟩

theorem nonneg_zeros (n : ℕ) : Nonneg (tab n fun _ => (0 : ℝ)) := fun k => by
  by_cases hk : k < n
  · rw [List.getD_eq_getElem?_getD, List.getElem?_eq_getElem (by simpa using hk), getElem_tab]
    exact le_rfl
  · rw [List.getD_eq_getElem?_getD, List.getElem?_eq_none (by simpa using hk)]
    exact le_rfl

theorem reconstruct_sane (hw : w.Accurate u) (h0 : 0 ≤ u) (hu : u < 1) {F : List ℝ} {xp : List Int} {niter nbins npart nprof : ℕ}
    (hb : 0 < nbins) {st : Recon.RState ℝ}
    (h : ((Recon.reconstruct (α := Rn w) w.sqrt xp F niter nbins npart nprof).2 : M (Recon.RState (Rn w))) = .ok st) :
    Sane npart (nprof * nbins) st ∧ ∀ p, p < nprof → SumsToOne u nbins (rowTotal st.flatRec nbins p) := by
  unfold Recon.reconstruct at h
  have h := (reconstructOn_result (α := Rn w) _ _ _ _ _ _ _ _).symm.trans h
  obtain ⟨r, h1, h⟩ := bind_split (A := List ℝ) h
  obtain ⟨fp, h2, h⟩ := bind_split h
  obtain ⟨W, h3, h⟩ := bind_split (A := List ℝ) h
  obtain ⟨s, h4, h⟩ := bind_split (A := Recon.RState ℝ) h
  obtain ⟨f1, f2⟩ := firstStep_nonneg (length_tab _ _) h3
  have hs : Sane npart (nprof * nbins) s :=
    forN_post (σ := Recon.RState ℝ) (fun _ st => Sane npart (nprof * nbins) st)
      ⟨f1, f2, length_tab _ _, nonneg_zeros _⟩
      (fun i a b _ ha he => iterBody_sane hw h0 hu hb ha he) h4
  unfold Recon.finalStep at h
  obtain ⟨a, g1, h⟩ := bind_split (A := List ℝ) h
  obtain ⟨b, g2, h⟩ := bind_split (A := List ℝ) h
  obtain ⟨c, g3, h⟩ := bind_split (A := List ℝ) h
  obtain ⟨d, g4, h⟩ := bind_split (A := ℝ) h
  obtain ⟨e, g5, h⟩ := bind_split (A := List ℝ) h
  cases h
  obtain ⟨p1, p2⟩ := project_nonneg hw hu.le hs.rnn hs.wnn g1
  obtain ⟨n1, n2, n3⟩ := normalize_rows_one hw h0 hu p2 hb g2
  exact ⟨⟨hs.wlen, hs.wnn, n1.trans (p1.trans hs.rlen), n2⟩, n3⟩

end Verif.Rounded
