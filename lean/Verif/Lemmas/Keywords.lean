import Verif.Spec.Keywords
import Mathlib.Data.List.Nodup
import Mathlib.Data.List.Forall2

namespace Verif.Kw
open Verif.Spec

variable {V : Type _}

theorem lookup_none {kw : List (String × V)} {n : String} : lookup kw n = none ↔ ∀ q ∈ kw, q.1 ≠ n := by
  unfold lookup
  simp

theorem lookup_some {kw : List (String × V)} (hk : Distinct kw) {n : String} {v : V} : lookup kw n = some v ↔ (n, v) ∈ kw := by
  unfold lookup
  induction kw with
  | nil => simp
  | cons q kw ih =>
    unfold Distinct at hk
    rw [List.map_cons, List.nodup_cons] at hk
    rw [List.find?_cons]
    by_cases h : q.1 = n
    · have : (q.1 == n) = true := by simpa using h
      rw [this]
      dsimp only
      constructor
      · intro e
        simp at e
        subst h; subst e
        exact List.mem_cons_self
      · intro e
        rcases List.mem_cons.mp e with e | e
        · subst e; rfl
        · exact absurd (List.mem_map.mpr ⟨_, e, rfl⟩) (h ▸ hk.1)
    · have : (q.1 == n) = false := by simpa using h
      rw [this]
      dsimp only
      rw [ih hk.2]
      constructor
      · exact List.mem_cons_of_mem _
      · intro e
        rcases List.mem_cons.mp e with e | e
        · subst e; exact absurd rfl h
        · exact e

/-- the value of a parameter without a positional value -/
def Gets (kw : List (String × V)) (p : Param V) (v : V) : Prop :=
  lookup kw p.1 = some v ∨ (lookup kw p.1 = none ∧ p.2 = some v)

theorem fill_iff {kw : List (String × V)} {ps : List (Param V)} {vs : List V} :
    fill kw ps = some vs ↔ List.Forall₂ (Gets kw) ps vs := by
  induction ps generalizing vs with
  | nil => simp [fill, eq_comm]
  | cons p ps ih =>
    unfold fill
    rw [List.forall₂_cons_left_iff]
    unfold Gets
    rcases h : lookup kw p.1 with _ | v
    · rcases hd : p.2 with _ | d
      · simp
      · simp only [Option.map_eq_some_iff, ih]
        constructor
        · rintro ⟨l, hl, rfl⟩; exact ⟨d, l, Or.inr (by simp), hl, rfl⟩
        · rintro ⟨b, l, hb, hl, rfl⟩
          refine ⟨l, hl, ?_⟩
          rcases hb with hb | ⟨_, hb⟩
          · simp at hb
          · cases hb; rfl
    · simp only [Option.map_eq_some_iff, ih]
      constructor
      · rintro ⟨l, hl, rfl⟩; exact ⟨v, l, Or.inl rfl, hl, rfl⟩
      · rintro ⟨b, l, hb, hl, rfl⟩
        refine ⟨l, hl, ?_⟩
        rcases hb with hb | ⟨hb, _⟩
        · cases hb; rfl
        · simp at hb

theorem bindCall_iff {sig : List (Param V)} {pos : List V} {kw : List (String × V)} {vs : List V} :
    bindCall sig pos kw = some vs ↔ pos.length ≤ sig.length ∧
      (∀ p ∈ sig.take pos.length, ∀ q ∈ kw, q.1 ≠ p.1) ∧
      (∀ q ∈ kw, ∃ p ∈ sig.drop pos.length, p.1 = q.1) ∧
      ∃ ws, List.Forall₂ (Gets kw) (sig.drop pos.length) ws ∧ vs = pos ++ ws := by
  unfold bindCall
  split
  · rename_i h
    simp only [reduceCtorEq, false_iff]
    rintro ⟨h', _⟩
    omega
  · rename_i h
    split
    · rename_i h2
      simp only [reduceCtorEq, false_iff]
      rintro ⟨_, h', _⟩
      obtain ⟨p, hp, h3⟩ := List.any_eq_true.mp h2
      obtain ⟨q, hq, h4⟩ := List.any_eq_true.mp h3
      exact h' p hp q hq (by simpa using h4)
    · rename_i h2
      split
      · rename_i h3
        simp only [reduceCtorEq, false_iff]
        rintro ⟨_, _, h', _⟩
        obtain ⟨q, hq, h4⟩ := List.any_eq_true.mp h3
        obtain ⟨p, hp, e⟩ := h' q hq
        simp only [Bool.not_eq_true', List.any_eq_false] at h4
        exact h4 p hp (by simpa using e)
      · rename_i h3
        rw [Option.map_eq_some_iff]
        simp only [fill_iff]
        constructor
        · rintro ⟨ws, hw, rfl⟩
          refine ⟨by omega, ?_, ?_, ws, hw, rfl⟩
          · intro p hp q hq e
            exact h2 (List.any_eq_true.mpr ⟨p, hp, List.any_eq_true.mpr ⟨q, hq, by simpa using e⟩⟩)
          · intro q hq
            by_contra hn
            push Not at hn
            refine h3 (List.any_eq_true.mpr ⟨q, hq, ?_⟩)
            simp only [Bool.not_eq_true', List.any_eq_false]
            intro p hp e
            exact hn p hp (by simpa using e)
        · rintro ⟨_, _, _, ws, hw, rfl⟩
          exact ⟨ws, hw, rfl⟩

/-- binding is what the python language gives a call -/
theorem bindCall_binding [Nonempty V] {sig : List (Param V)} {pos : List V} {kw : List (String × V)} {vs : List V}
    (hs : Distinct sig) (hk : Distinct kw) :
    bindCall sig pos kw = some vs ↔ ∃ f, Binding sig pos kw f ∧ vs = sig.map fun p => f p.1 := by
  rw [bindCall_iff]
  constructor
  · rintro ⟨hl, ho, hn, ws, hw, rfl⟩
    classical
    have hlen : (pos ++ ws).length = sig.length := by
      have := hw.length_eq
      rw [List.length_drop] at this
      rw [List.length_append]; omega
    -- the function given by the places of the names
    have hf : ∃ f : String → V, ∀ (i : ℕ) (p : Param V) v, sig[i]? = some p → (pos ++ ws)[i]? = some v → f p.1 = v := by
      refine ⟨fun n => (pos ++ ws).getD ((sig.map (·.1)).idxOf n) (Classical.arbitrary V), ?_⟩
      intro i p v hp hv
      obtain ⟨hi, hb⟩ := List.getElem?_eq_some_iff.mp hp
      have e : (sig.map (·.1)).idxOf p.1 = i := by
        have := List.Nodup.idxOf_getElem hs i (by rw [List.length_map]; exact hi)
        rw [List.getElem_map, hb] at this
        exact this
      dsimp only
      rw [e, List.getD_eq_getElem?_getD, hv]
      rfl
    obtain ⟨f, hf⟩ := hf
    have hget : ∀ (i : ℕ) (p : Param V), sig[i]? = some p → ∃ v, (pos ++ ws)[i]? = some v := fun i p hp =>
      ⟨_, List.getElem?_eq_getElem (by rw [hlen]; exact (List.getElem?_eq_some_iff.mp hp).1)⟩
    -- a parameter behind the positional ones
    have hrest : ∀ (i : ℕ) (p : Param V), pos.length ≤ i → sig[i]? = some p → Gets kw p (f p.1) := by
      intro i p hi hp
      obtain ⟨v, hv⟩ := hget i p hp
      rw [hf i p v hp hv]
      rw [List.getElem?_append_right hi] at hv
      obtain ⟨a, ha⟩ := List.getElem?_eq_some_iff.mp hv
      have hd : (sig.drop pos.length)[i - pos.length]? = some p := by
        rw [List.getElem?_drop, show pos.length + (i - pos.length) = i by omega]; exact hp
      obtain ⟨b, hb⟩ := List.getElem?_eq_some_iff.mp hd
      have := List.forall₂_iff_get.mp hw |>.2 (i - pos.length) b a
      simpa only [List.get_eq_getElem, hb, ha] using this
    refine ⟨f, ⟨?_, ?_, ?_, ?_, ?_⟩, ?_⟩
    · intro i v hv
      have hi := (List.getElem?_eq_some_iff.mp hv).1
      refine ⟨sig[i], List.getElem?_eq_getElem (by omega), ?_⟩
      refine hf i _ v (List.getElem?_eq_getElem (by omega)) ?_
      rw [List.getElem?_append_left hi]; exact hv
    · intro i p hi hp
      refine ho p (List.mem_of_getElem? (i := i) ?_)
      rw [List.getElem?_take_of_lt hi]; exact hp
    · intro q hq
      obtain ⟨p, hp, e⟩ := hn q hq
      exact ⟨p, List.mem_of_mem_drop hp, e⟩
    · intro q hq
      obtain ⟨p, hp, e⟩ := hn q hq
      obtain ⟨j, hj⟩ := List.mem_iff_getElem?.mp hp
      rw [List.getElem?_drop] at hj
      rcases hrest _ p (Nat.le_add_right _ _) hj with h | ⟨h, _⟩
      · rw [(lookup_some hk), e] at h
        have h2 : (q.1, q.2) ∈ kw := hq
        rw [← lookup_some hk] at h h2
        rw [h] at h2
        exact Option.some.inj h2
      · exact absurd e.symm (lookup_none.mp h q hq)
    · intro i p hi hp hq
      rcases hrest i p hi hp with h | ⟨_, h⟩
      · rw [lookup_none.mpr hq] at h; simp at h
      · exact h
    · refine List.ext_getElem? fun i => ?_
      rw [List.getElem?_map]
      rcases hp : sig[i]? with _ | p
      · rw [Option.map_none]
        rw [List.getElem?_eq_none_iff] at hp ⊢
        omega
      · obtain ⟨v, hv⟩ := hget i p hp
        rw [hv, Option.map_some, hf i p v hp hv]
  · rintro ⟨f, hb, rfl⟩
    have hl : pos.length ≤ sig.length := by
      by_contra h
      obtain ⟨p, hp, _⟩ := hb.position sig.length pos[sig.length] (List.getElem?_eq_getElem (by omega))
      simp at hp
    have hpos : pos = (sig.take pos.length).map fun p => f p.1 := by
      refine List.ext_getElem? fun i => ?_
      rw [List.getElem?_map]
      rcases hv : pos[i]? with _ | v
      · rw [List.getElem?_eq_none_iff] at hv
        rw [List.getElem?_take_eq_none (by omega)]; rfl
      · obtain ⟨p, hp, e⟩ := hb.position i v hv
        rw [List.getElem?_take_of_lt (List.getElem?_eq_some_iff.mp hv).1, hp, Option.map_some, e]
    refine ⟨hl, ?_, ?_, (sig.drop pos.length).map (fun p => f p.1), ?_, ?_⟩
    · intro p hp q hq
      obtain ⟨i, hi⟩ := List.mem_iff_getElem?.mp hp
      have hlt : i < pos.length := by
        by_contra h
        rw [List.getElem?_take_eq_none (by omega)] at hi; simp at hi
      rw [List.getElem?_take_of_lt hlt] at hi
      exact hb.once i p hlt hi q hq
    · intro q hq
      obtain ⟨p, hp, e⟩ := hb.known q hq
      obtain ⟨i, hi⟩ := List.mem_iff_getElem?.mp hp
      refine ⟨p, ?_, e⟩
      by_cases hlt : i < pos.length
      · exact absurd e.symm (hb.once i p hlt hi q hq)
      · refine List.mem_of_getElem? (i := i - pos.length) ?_
        rw [List.getElem?_drop, show pos.length + (i - pos.length) = i by omega]; exact hi
    · rw [List.forall₂_map_right_iff, List.forall₂_same]
      intro p hp
      obtain ⟨j, hj⟩ := List.mem_iff_getElem?.mp hp
      rw [List.getElem?_drop] at hj
      unfold Gets
      rcases h : lookup kw p.1 with _ | v
      · exact Or.inr ⟨rfl, hb.default _ p (Nat.le_add_right _ _) hj (lookup_none.mp h)⟩
      · exact Or.inl (by rw [hb.keyword _ ((lookup_some hk).mp h)])
    · conv_lhs => rw [← List.take_append_drop pos.length sig, List.map_append, ← hpos]

/-- how many values a call that fits can have -/
theorem bindCall_count {sig : List (Param V)} {pos : List V} {kw : List (String × V)} {vs : List V}
    (hk : Distinct kw) (h : bindCall sig pos kw = some vs) : pos.length + kw.length ≤ sig.length := by
  obtain ⟨hl, ho, hn, ws, hw, rfl⟩ := bindCall_iff.mp h
  have hsub : kw.map (·.1) ⊆ (sig.drop pos.length).map (·.1) := by
    intro n hn'
    obtain ⟨q, hq, rfl⟩ := List.mem_map.mp hn'
    obtain ⟨p, hp, e⟩ := hn q hq
    exact List.mem_map.mpr ⟨p, hp, e⟩
  have := (hk.subperm hsub).length_le
  rw [List.length_map, List.length_map, List.length_drop] at this
  omega

/-- without defaults every parameter needs its value -/
theorem bindCall_count_full {sig : List (Param V)} {pos : List V} {kw : List (String × V)} {vs : List V}
    (hs : Distinct sig) (hd : ∀ p ∈ sig, p.2 = none) (h : bindCall sig pos kw = some vs) :
    sig.length ≤ pos.length + kw.length := by
  obtain ⟨hl, ho, hn, ws, hw, rfl⟩ := bindCall_iff.mp h
  have hsub : (sig.drop pos.length).map (·.1) ⊆ kw.map (·.1) := by
    intro n hn'
    obtain ⟨p, hp, rfl⟩ := List.mem_map.mp hn'
    obtain ⟨j, hj⟩ := List.mem_iff_getElem?.mp hp
    obtain ⟨b, hb⟩ := List.getElem?_eq_some_iff.mp hj
    have := List.forall₂_iff_get.mp hw |>.2 j b (by rw [← hw.length_eq]; exact b)
    rw [List.get_eq_getElem, hb] at this
    rcases this with h | ⟨_, h⟩
    · by_contra hc
      have : lookup kw p.1 = none := lookup_none.mpr fun q hq e => hc (List.mem_map.mpr ⟨q, hq, e⟩)
      rw [this] at h; simp at h
    · rw [hd p (List.mem_of_mem_drop hp)] at h; simp at h
  have hnd : ((sig.drop pos.length).map (·.1)).Nodup := by
    rw [List.map_drop]; exact hs.sublist (List.drop_sublist _ _)
  have := (hnd.subperm hsub).length_le
  rw [List.length_map, List.length_map, List.length_drop] at this
  omega

variable {W : Type _}

theorem lookup_map (g : V → W) (kw : List (String × V)) (n : String) :
    lookup (kw.map fun q => (q.1, g q.2)) n = (lookup kw n).map g := by
  unfold lookup
  rw [List.find?_map, Option.map_map, Option.map_map]
  rfl

theorem fill_map (g : V → W) (kw : List (String × V)) (ps : List (Param V)) :
    fill (kw.map fun q => (q.1, g q.2)) (ps.map fun p => (p.1, p.2.map g)) = (fill kw ps).map (List.map g) := by
  induction ps with
  | nil => rfl
  | cons p ps ih =>
    rw [List.map_cons, fill, fill, lookup_map, ih]
    cases lookup kw p.1 with
    | some v => simp [Option.map_map, Function.comp_def]
    | none =>
      cases p.2 with
      | none => rfl
      | some d => simp [Option.map_map, Function.comp_def]

theorem any_map_fst (g : V → W) (l : List (String × V)) (P : String → Bool) :
    ((l.map fun q => (q.1, g q.2)).any fun q => P q.1) = l.any fun q => P q.1 := by
  rw [List.any_map]; rfl

/-- binding does not look at the values -/
theorem bindCall_map (g : V → W) (sig : List (Param V)) (pos : List V) (kw : List (String × V)) :
    bindCall (sig.map fun p => (p.1, p.2.map g)) (pos.map g) (kw.map fun q => (q.1, g q.2)) = (bindCall sig pos kw).map (List.map g) := by
  unfold bindCall
  rw [List.length_map, List.length_map, ← List.map_take, ← List.map_drop, fill_map]
  have e1 : (((sig.take pos.length).map fun p => (p.1, p.2.map g)).any fun p =>
      (kw.map fun q => (q.1, g q.2)).any fun q => q.1 == p.1) = (sig.take pos.length).any fun p => kw.any fun q => q.1 == p.1 := by
    rw [any_map_fst (fun o : Option V => o.map g) (sig.take pos.length)
      (fun n => (kw.map fun q => (q.1, g q.2)).any fun q => q.1 == n)]
    congr 1
    funext p
    exact any_map_fst g kw fun n => n == p.1
  have e2 : ((kw.map fun q => (q.1, g q.2)).any fun q => !((sig.drop pos.length).map fun p => (p.1, p.2.map g)).any fun p => p.1 == q.1)
      = kw.any fun q => !(sig.drop pos.length).any fun p => p.1 == q.1 := by
    rw [any_map_fst g kw (fun n => !((sig.drop pos.length).map fun p => (p.1, p.2.map g)).any fun p => p.1 == n)]
    congr 1
    funext q
    rw [any_map_fst (fun o : Option V => o.map g) (sig.drop pos.length) fun n => n == q.1]
  rw [e1, e2]
  split
  · rfl
  · split
    · rfl
    · split
      · rfl
      · rw [Option.map_map, Option.map_map]
        congr 1
        funext vs
        simp

theorem sig_map (g : V → W) (fn : Fn) (defaults : List V) :
    (fn.sig defaults).map (fun p => (p.1, p.2.map g)) = fn.sig (defaults.map g) := by
  unfold Fn.sig
  rw [List.map_append, List.map_map]
  congr 1
  rw [List.map_map, List.zip_map_right, List.zip_map_right, List.map_map]
  rfl

end Verif.Kw
