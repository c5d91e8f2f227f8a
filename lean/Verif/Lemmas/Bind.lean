import Verif.Model.Bind

/-!
# Lemmas about the bindings
-/

namespace Verif.Bind
open Verif.Track

section heap
variable {β : Type _}

theorem rd_left {l r : List β} {a : Int} {v : β} (h : rd l a = .ok v) : rd (l ++ r) a = .ok v := by
  unfold rd at h ⊢
  split at h
  · rename_i h0
    rw [if_pos h0]
    cases hg : l[a.toNat]? with
    | none => rw [hg] at h; cases h
    | some w =>
      rw [hg] at h
      cases h
      have hlt : a.toNat < l.length := by
        rw [List.getElem?_eq_some_iff] at hg
        exact hg.1
      rw [List.getElem?_append_left hlt, hg]
  · cases h

theorem rd_right (l r : List β) (k : ℕ) : rd (l ++ r) ((l.length : Int) + k) = rd r k := by
  have e : ((l.length : Int) + k).toNat = l.length + k := by omega
  unfold rd
  rw [if_pos (by omega), if_pos (by omega), e, List.getElem?_append_right (by omega)]
  simp

theorem rd_lt {l : List β} {a : Int} {v : β} (h : rd l a = .ok v) : 0 ≤ a ∧ a < l.length := by
  unfold rd at h
  split at h
  · rename_i h0
    cases hg : l[a.toNat]? with
    | none => rw [hg] at h; cases h
    | some w =>
      rw [List.getElem?_eq_some_iff] at hg
      have := hg.1
      omega
  · cases h

theorem upd_spec {l : List β} {a : Int} {v w : β} (h : rd l a = .ok v) :
    ∃ l', upd l a w = .ok l' ∧ l'.length = l.length ∧ rd l' a = .ok w ∧ ∀ b, b ≠ a → rd l' b = rd l b := by
  obtain ⟨h0, h1⟩ := rd_lt h
  refine ⟨l.set a.toNat w, ?_, by simp, ?_, ?_⟩
  · unfold upd
    rw [if_pos ⟨h0, by omega⟩]
  · unfold rd
    rw [if_pos h0, List.getElem?_set_self (by omega)]
  · intro b hb
    unfold rd
    by_cases hb0 : 0 ≤ b
    · rw [if_pos hb0, if_pos hb0, List.getElem?_set_ne (by omega)]
    · rw [if_neg hb0, if_neg hb0]

end heap

variable {α : Type _}

theorem loadAll_append (E : Env α) (c : Bool) {ps : List Param} {vs : List (PyVal α)} (hl : ps.length = vs.length)
    (h : Heap α) (ps' : List Param) (vs' : List (PyVal α)) :
    loadAll E c h (ps ++ ps') (vs ++ vs') = (loadAll E c h ps vs).bind fun r =>
      (loadAll E c r.1 ps' vs').map fun r' => (r'.1, r.2 ++ r'.2) := by
  induction ps generalizing vs h with
  | nil =>
    cases vs with
    | nil => simp [loadAll]
    | cons v vs => cases hl
  | cons p ps ih =>
    cases vs with
    | nil => cases hl
    | cons v vs =>
      simp only [List.length_cons, Nat.add_right_cancel_iff] at hl
      simp only [List.cons_append, loadAll]
      cases load E c h p v with
      | none => rfl
      | some r =>
        obtain ⟨h1, x⟩ := r
        simp only
        rw [ih hl]
        cases loadAll E c h1 ps vs with
        | none => rfl
        | some r2 =>
          obtain ⟨h2, xs⟩ := r2
          simp only [Option.bind_some]
          cases loadAll E c h2 ps' vs' with
          | none => rfl
          | some r3 => rfl

/-- array arguments as python values -/
def refs (as : List Int) : List (PyVal α) := as.map fun a => .num (.arr a)

theorem loadAll_fit (E : Env α) (c : Bool) (d : DType) (h : Heap α) (as : List Int)
    (hf : ∀ a ∈ as, ∃ A, rd h a = .ok A ∧ A.dtype = d ∧ A.order = .c) :
    loadAll E c h (List.replicate as.length (.arr d)) (refs as) = some (h, as.map .ref) := by
  induction as with
  | nil => rfl
  | cons a as ih =>
    obtain ⟨A, h1, h2, h3⟩ := hf a (by simp)
    have ih := ih fun b hb => hf b (by simp [hb])
    unfold refs at ih
    simp only [List.length_cons, List.replicate_succ, refs, List.map_cons, loadAll, load, loadArr, h1, h2, h3, and_self,
      if_true, Option.map_some, ih]

theorem loadAll_misfit (E : Env α) (d : DType) (h : Heap α) {a : Int} {A : NdArr α} (h1 : rd h a = .ok A)
    (h2 : A.dtype ≠ d) (ps : List Param) (vs : List (PyVal α)) :
    loadAll E false h (.arr d :: ps) (.num (.arr a) :: vs) = none := by
  simp [loadAll, load, loadArr, h1, h2]

theorem loadAll_copy (E : Env α) (d : DType) (h : Heap α) (l : List (Int × NdArr α))
    (hf : ∀ x ∈ l, rd h x.1 = .ok x.2 ∧ x.2.dtype ≠ d) :
    loadAll E true h (List.replicate l.length (.arr d)) (refs (l.map (·.1)))
      = some (h ++ l.map (fun x => convertArr E d x.2),
          (List.range l.length).map fun i : ℕ => .ref ((h.length : Int) + i)) := by
  induction l generalizing h with
  | nil => simp [loadAll, refs]
  | cons x l ih =>
    obtain ⟨h1, h2⟩ := hf x (by simp)
    have ih := ih (h ++ [convertArr E d x.2]) fun y hy => ⟨rd_left (hf y (by simp [hy])).1, (hf y (by simp [hy])).2⟩
    have e : load E true h (.arr d) (.num (.arr x.1)) = some (h ++ [convertArr E d x.2], .ref (h.length : Int)) := by
      simp [load, loadArr, h1, h2]
    unfold refs at ih
    simp only [List.length_cons, List.replicate_succ, refs, List.map_cons, loadAll]
    rw [e]
    simp only
    rw [ih]
    simp only [List.append_assoc, List.singleton_append, List.range_succ_eq_map, List.map_cons, List.map_map,
      Option.some.injEq, Prod.mk.injEq, List.cons.injEq, true_and]
    refine ⟨by simp, ?_⟩
    apply List.map_congr_left
    intro i _
    simp [add_assoc, add_comm]

variable [Add α] [Sub α] [Mul α]

/-- What the wrapper does to the memory. -/
theorem kadArrayBody_spec (E : Env α) {h : Heap α} {xp yp de dp r1 r2 p0 dE dc : Int} {X Y e p a1 a2 a3 a4 a5 : NdArr α}
    (hX : rd h xp = .ok X) (hY : rd h yp = .ok Y) (he : rd h de = .ok e) (hp : rd h dp = .ok p)
    (h1 : rd h r1 = .ok a1) (h2 : rd h r2 = .ok a2) (h3 : rd h p0 = .ok a3) (h4 : rd h dE = .ok a4)
    (h5 : rd h dc = .ok a5) (n1 : yp ≠ xp) (n2 : de ≠ xp) (n3 : dp ≠ xp) (n4 : de ≠ yp) (n5 : dp ≠ yp) (n6 : dp ≠ de)
    (phi12 : List α) (hratio : α) (dturns recProf deltaturn nturns nparts : Int) :
    match Track.kickAndDrift E.sin X.rows Y.rows e.rows.flatten p.rows.flatten
      ⟨a1.rows.flatten, a2.rows.flatten, a3.rows.flatten, a4.rows.flatten, a5.rows.flatten, phi12, hratio⟩
      dturns recProf deltaturn nturns nparts.toNat with
    | .error f => kadArrayBody E h xp yp de dp r1 r2 p0 dE dc phi12 hratio dturns recProf deltaturn nturns nparts
        = .error f
    | .ok s => ∃ h', kadArrayBody E h xp yp de dp r1 r2 p0 dE dc phi12 hratio dturns recProf deltaturn nturns nparts
        = .ok h' ∧ rd h' xp = .ok { X with rows := s.xp } ∧ rd h' yp = .ok { Y with rows := s.yp } ∧
        ∀ b, b ≠ xp → b ≠ yp → b ≠ de → b ≠ dp → rd h' b = rd h b := by
  unfold kadArrayBody
  simp only [hX, hY, he, hp, h1, h2, h3, h4, h5, bind_ok]
  cases Track.kickAndDrift E.sin X.rows Y.rows e.rows.flatten p.rows.flatten
      ⟨a1.rows.flatten, a2.rows.flatten, a3.rows.flatten, a4.rows.flatten, a5.rows.flatten, phi12, hratio⟩
      dturns recProf deltaturn nturns nparts.toNat with
  | error f => rfl
  | ok s =>
    simp only [bind_ok]
    obtain ⟨g1, u1, -, v1, w1⟩ := upd_spec (w := { X with rows := s.xp }) hX
    obtain ⟨g2, u2, -, v2, w2⟩ := upd_spec (l := g1) (a := yp) (w := { Y with rows := s.yp }) (by rw [w1 _ n1]; exact hY)
    obtain ⟨g3, u3, -, v3, w3⟩ := upd_spec (l := g2) (a := de) (w := { e with rows := [s.denergy] })
      (by rw [w2 _ n4, w1 _ n2]; exact he)
    obtain ⟨g4, u4, -, v4, w4⟩ := upd_spec (l := g3) (a := dp) (w := { p with rows := [s.dphi] })
      (by rw [w3 _ n6, w2 _ n5, w1 _ n3]; exact hp)
    refine ⟨g4, ?_, ?_, ?_, ?_⟩
    · rw [u1, bind_ok, u2, bind_ok, u3, bind_ok, u4]
    · rw [w4 _ n3.symm, w3 _ n2.symm, w2 _ n1.symm, v1]
    · rw [w4 _ n5.symm, w3 _ n4.symm, v2]
    · intro b b1 b2 b3 b4
      rw [w4 _ b4, w3 _ b3, w2 _ b2, w1 _ b1]

end Verif.Bind

namespace Verif.Bind
open Verif.Track
variable {α : Type _}

/-- the arguments after the nine arrays -/
def tailArgs (phi12 hratio : Num α) (dt rp dl nt np : Int) (ftn : Bool) (cb : PyVal α) : List (PyVal α) :=
  [.num phi12, .num hratio, .num (.int dt), .num (.int rp), .num (.int dl), .num (.int nt), .num (.int np), .bool ftn, cb]

/-- what is left of them after conversion -/
def restVals (dt rp dl nt np : Int) (ftn : Bool) (cb : PyVal α) : List (CVal α) :=
  [.int dt, .int rp, .int dl, .int nt, .int np, .bool ftn, .obj cb]

theorem tryMachine (E : Env α) (c : Bool) (h : Heap α) (as : List Int) (h9 : as.length = 9) (φ η : Num α)
    (dt rp dl nt np : Int) (ftn : Bool) (cb : PyVal α) :
    tryOverload E c h kadMachine (refs as ++ tailArgs φ η dt rp dl nt np ftn cb) = none := by
  simp [tryOverload, kadMachine, refs, tailArgs, h9]

theorem tryScalar (E : Env α) (c : Bool) (h : Heap α) (as : List Int) (h9 : as.length = 9) (d : DType) (φ η : Num α)
    (dt rp dl nt np : Int) (ftn : Bool) (cb : PyVal α) :
    tryOverload E c h (kadScalar d) (refs as ++ tailArgs φ η dt rp dl nt np ftn cb)
      = (loadAll E c h (List.replicate 9 (.arr d)) (refs as)).bind fun r =>
          (loadReal E c d r.1 φ).bind fun x => (loadReal E c d r.1 η).map fun y =>
            (r.1, .scalar d, r.2 ++ .real x :: .real y :: restVals dt rp dl nt np ftn cb) := by
  have e : (refs as ++ tailArgs φ η dt rp dl nt np ftn cb).length = 18 := by simp [refs, tailArgs, h9]
  have hp : (kadScalar d : Overload Kad α).params.length = 18 := by simp [kadScalar]
  have hd : (kadScalar d : Overload Kad α).defaults.length = 2 := rfl
  unfold tryOverload
  rw [if_pos (by rw [e, hp, hd]; omega), e, hp, hd]
  have : (kadScalar d : Overload Kad α).defaults.drop (18 + 2 - 18) = [] := rfl
  rw [this, List.append_nil]
  simp only [kadScalar]
  rw [loadAll_append E c (by simp [refs, h9])]
  cases loadAll E c h (List.replicate 9 (.arr d)) (refs as) with
  | none => rfl
  | some r =>
    obtain ⟨g, cs⟩ := r
    simp only [Option.bind_some, tailArgs, loadAll, load]
    cases loadReal E c d g φ with
    | none => rfl
    | some x =>
      simp only [Option.map_some, Option.bind_some]
      cases loadReal E c d g η with
      | none => rfl
      | some y => rfl

theorem tryArray (E : Env α) (c : Bool) (h : Heap α) (as : List Int) (h9 : as.length = 9) (d : DType) (φ η : Num α)
    (dt rp dl nt np : Int) (ftn : Bool) (cb : PyVal α) :
    tryOverload E c h (kadArray d) (refs as ++ tailArgs φ η dt rp dl nt np ftn cb)
      = (loadAll E c h (List.replicate 9 (.arr d)) (refs as)).bind fun r =>
          (load E c r.1 (.arr d) (.num φ)).bind fun r2 => (loadReal E c d r2.1 η).map fun y =>
            (r2.1, .array d, r.2 ++ r2.2 :: .real y :: restVals dt rp dl nt np ftn cb) := by
  have e : (refs as ++ tailArgs φ η dt rp dl nt np ftn cb).length = 18 := by simp [refs, tailArgs, h9]
  have hp : (kadArray d : Overload Kad α).params.length = 18 := by simp [kadArray]
  have hd : (kadArray d : Overload Kad α).defaults.length = 2 := rfl
  unfold tryOverload
  rw [if_pos (by rw [e, hp, hd]; omega), e, hp, hd]
  have : (kadArray d : Overload Kad α).defaults.drop (18 + 2 - 18) = [] := rfl
  rw [this, List.append_nil]
  have e2 : (kadArray d : Overload Kad α).params = List.replicate 9 (.arr d) ++
      [.arr d, .real d, .int, .int, .int, .int, .int, .bool, .obj] := rfl
  rw [e2, loadAll_append E c (by simp [refs, h9])]
  cases loadAll E c h (List.replicate 9 (.arr d)) (refs as) with
  | none => rfl
  | some r =>
    obtain ⟨g, cs⟩ := r
    simp only [Option.bind_some, tailArgs, loadAll]
    cases load E c g (.arr d) (.num φ) with
    | none => rfl
    | some r2 =>
      obtain ⟨g2, c2⟩ := r2
      simp only [Option.bind_some, load]
      cases loadReal E c d g2 η with
      | none => rfl
      | some y => rfl

/-- the nine arrays are all of element type `d`, in C order -/
def Fits (h : Heap α) (d : DType) (as : List Int) : Prop := ∀ a ∈ as, ∃ A, rd h a = .ok A ∧ A.dtype = d ∧ A.order = .c

theorem load9_fit (E : Env α) (c : Bool) {d : DType} {h : Heap α} {as : List Int} (h9 : as.length = 9)
    (hf : Fits h d as) : loadAll E c h (List.replicate 9 (.arr d)) (refs as) = some (h, as.map .ref) := by
  rw [← h9]; exact loadAll_fit E c d h as hf

theorem load9_misfit (E : Env α) {d d' : DType} {h : Heap α} {as : List Int} (h9 : as.length = 9)
    (hf : Fits h d as) (hd : d ≠ d') : loadAll E false h (List.replicate 9 (.arr d')) (refs as) = none := by
  cases as with
  | nil => cases h9
  | cons a as =>
    obtain ⟨A, h1, h2, -⟩ := hf a (by simp)
    exact loadAll_misfit E d' h h1 (by rw [h2]; exact hd) _ _

/-- scalar `phi12`, arrays of the chosen precision, both numbers accepted without conversion: the call works on the arrays
themselves -/
theorem resolve_scalar (E : Env α) {d : DType} (hd : d = .f64 ∨ d = .f32) {h : Heap α} {as : List Int}
    (h9 : as.length = 9) (hf : Fits h d as) {φ η : Num α} {x y : α} (hx : loadReal E false d h φ = some x)
    (hy : loadReal E false d h η = some y) (dt rp dl nt np : Int) (ftn : Bool) (cb : PyVal α) :
    resolve E h kadOverloads (refs as ++ tailArgs φ η dt rp dl nt np ftn cb)
      = .ok (h, .scalar d, as.map .ref ++ .real x :: .real y :: restVals dt rp dl nt np ftn cb) := by
  unfold resolve
  rw [if_pos (by simp [kadOverloads])]
  simp only [kadOverloads, firstOverload, tryMachine E false h as h9, tryScalar E false h as h9]
  rcases hd with rfl | rfl
  · simp only [load9_fit E false h9 hf, Option.bind_some, hx, hy, Option.map_some]
  · simp only [load9_misfit E h9 hf (show DType.f32 ≠ .f64 by decide), load9_fit E false h9 hf, Option.bind_some,
      Option.bind_none, hx, hy, Option.map_some]

/-- array `phi12` of the chosen precision -/
theorem resolve_array (E : Env α) {d : DType} (hd : d = .f64 ∨ d = .f32) {h : Heap α} {as : List Int}
    (h9 : as.length = 9) (hf : Fits h d as) {p : Int} {A : NdArr α} (hp : rd h p = .ok A) (hA : A.dtype = d)
    (hA' : A.order = .c) {η : Num α} {y : α} (hy : loadReal E false d h η = some y) (dt rp dl nt np : Int) (ftn : Bool)
    (cb : PyVal α) :
    resolve E h kadOverloads (refs as ++ tailArgs (.arr p) η dt rp dl nt np ftn cb)
      = .ok (h, .array d, as.map .ref ++ .ref p :: .real y :: restVals dt rp dl nt np ftn cb) := by
  have hr : ∀ d', loadReal E false d' h (.arr p) = none := fun _ => rfl
  have hl : load E false h (.arr d) (.num (.arr p)) = some (h, .ref p) := by simp [load, loadArr, hp, hA, hA']
  unfold resolve
  rw [if_pos (by simp [kadOverloads])]
  simp only [kadOverloads, firstOverload, tryMachine E false h as h9, tryScalar E false h as h9,
    tryArray E false h as h9]
  rcases hd with rfl | rfl
  · simp only [load9_fit E false h9 hf, load9_misfit E h9 hf (show DType.f64 ≠ .f32 by decide), Option.bind_some,
      Option.bind_none, hr, hl, hy, Option.map_some]
  · simp only [load9_fit E false h9 hf, load9_misfit E h9 hf (show DType.f32 ≠ .f64 by decide), Option.bind_some,
      Option.bind_none, hr, hl, hy, Option.map_some]

end Verif.Bind

namespace Verif.Bind
open Verif.Track
variable {α : Type _}

/-- a python float or int -/
def IsNum (v : Num α) : Prop := ∀ a, v ≠ .arr a

/-- its value in a precision -/
def numVal (E : Env α) (d : DType) : Num α → α
  | .float x => E.cv d x
  | .int n => E.cv d (E.ofInt n)
  | .arr _ => E.zero

theorem loadReal_true (E : Env α) (d : DType) (h : Heap α) {v : Num α} (hv : IsNum v) :
    loadReal E true d h v = some (numVal E d v) := by
  cases v with
  | arr a => exact absurd rfl (hv a)
  | float x => rfl
  | int n => simp [loadReal, numVal]

theorem loadReal_false (E : Env α) (d : DType) (h : Heap α) {v : Num α} (hv : IsNum v) :
    loadReal E false d h v = some (numVal E d v) ∨ ∀ d h, loadReal E false d h v = none := by
  cases v with
  | arr a => exact absurd rfl (hv a)
  | float x => exact .inl rfl
  | int n =>
    cases hE : E.intAsFloat with
    | true => left; simp [loadReal, numVal, hE]
    | false => right; intro d h; simp [loadReal, hE]

/-- no one-element array -/
def Several (A : NdArr α) : Prop := ∀ x, A.rows.flatten ≠ [x]

theorem loadReal_several (E : Env α) (c : Bool) (d : DType) {h : Heap α} {p : Int} {A : NdArr α} (hp : rd h p = .ok A)
    (hA : Several A) : loadReal E c d h (.arr p) = none := by
  cases c with
  | false => rfl
  | true =>
    simp only [loadReal, hp, if_true]
    split
    · rename_i x hx; exact absurd hx (hA x)
    · rfl

theorem load9_copy (E : Env α) {d : DType} {h : Heap α} {l : List (Int × NdArr α)} (h9 : l.length = 9)
    (hf : ∀ x ∈ l, rd h x.1 = .ok x.2 ∧ x.2.dtype ≠ d) :
    loadAll E true h (List.replicate 9 (.arr d)) (refs (l.map (·.1)))
      = some (h ++ l.map (fun x => convertArr E d x.2),
          (List.range 9).map fun i : ℕ => .ref ((h.length : Int) + i)) := by
  rw [← h9]; exact loadAll_copy E d h l hf

theorem fits_of_list {h : Heap α} {d : DType} {l : List (Int × NdArr α)}
    (hf : ∀ x ∈ l, rd h x.1 = .ok x.2 ∧ x.2.dtype = d ∧ x.2.order = .c) : Fits h d (l.map (·.1)) := by
  intro a ha
  obtain ⟨x, hx, rfl⟩ := List.mem_map.mp ha
  exact ⟨x.2, hf x hx⟩

/-- double precision, `phi12` a number -/
theorem resolve_double_scalar (E : Env α) {h : Heap α} {l : List (Int × NdArr α)} (h9 : l.length = 9)
    (hf : ∀ x ∈ l, rd h x.1 = .ok x.2 ∧ x.2.dtype = .f64 ∧ x.2.order = .c) {φ η : Num α} (hφ : IsNum φ) (hη : IsNum η)
    (dt rp dl nt np : Int) (ftn : Bool) (cb : PyVal α) :
    resolve E h kadOverloads (refs (l.map (·.1)) ++ tailArgs φ η dt rp dl nt np ftn cb)
      = .ok (h, .scalar .f64, (l.map (·.1)).map .ref ++ .real (numVal E .f64 φ) :: .real (numVal E .f64 η) ::
          restVals dt rp dl nt np ftn cb) := by
  have hF := fits_of_list hf
  have h9' : (l.map (·.1)).length = 9 := by simpa using h9
  have key : ∀ c : Option (Heap α × Kad × List (CVal α)), (if 1 < (kadOverloads : List (Overload Kad α)).length then c else none) = c := by
    intro c; rw [if_pos (by simp [kadOverloads])]
  by_cases hx : loadReal E false .f64 h φ = some (numVal E .f64 φ)
  · by_cases hy : loadReal E false .f64 h η = some (numVal E .f64 η)
    · exact resolve_scalar E (.inl rfl) h9' hF hx hy ..
    · have hn : ∀ d h, loadReal E false d h η = none := (loadReal_false E .f64 h hη).resolve_left hy
      have hl : ∀ d h, load E false h (.arr d) (.num φ) = none := by
        intro d h
        cases φ with
        | arr a => exact absurd rfl (hφ a)
        | float x => rfl
        | int n => rfl
      unfold resolve
      rw [key]
      simp only [kadOverloads, firstOverload, tryMachine E _ h _ h9', tryScalar E _ h _ h9', tryArray E _ h _ h9',
        load9_fit E _ h9' hF, load9_misfit E h9' hF (show DType.f64 ≠ .f32 by decide), Option.bind_some,
        Option.bind_none, hx, hn, hl, loadReal_true E .f64 h hφ, loadReal_true E .f64 h hη, Option.map_some,
        Option.map_none]
  · have hn : ∀ d h, loadReal E false d h φ = none := (loadReal_false E .f64 h hφ).resolve_left hx
    have hl : ∀ d h, load E false h (.arr d) (.num φ) = none := by
      intro d h
      cases φ with
      | arr a => exact absurd rfl (hφ a)
      | float x => rfl
      | int n => rfl
    unfold resolve
    rw [key]
    simp only [kadOverloads, firstOverload, tryMachine E _ h _ h9', tryScalar E _ h _ h9', tryArray E _ h _ h9',
      load9_fit E _ h9' hF, load9_misfit E h9' hF (show DType.f64 ≠ .f32 by decide), Option.bind_some,
      Option.bind_none, hn, hl, loadReal_true E .f64 h hφ, loadReal_true E .f64 h hη, Option.map_some]

/-- double precision, `phi12` an array -/
theorem resolve_double_array (E : Env α) {h : Heap α} {l : List (Int × NdArr α)} (h9 : l.length = 9)
    (hf : ∀ x ∈ l, rd h x.1 = .ok x.2 ∧ x.2.dtype = .f64 ∧ x.2.order = .c) {p : Int} {A : NdArr α}
    (hp : rd h p = .ok A) (hA : A.dtype = .f64) (hA' : A.order = .c) (hS : Several A) {η : Num α} (hη : IsNum η)
    (dt rp dl nt np : Int) (ftn : Bool) (cb : PyVal α) :
    resolve E h kadOverloads (refs (l.map (·.1)) ++ tailArgs (.arr p) η dt rp dl nt np ftn cb)
      = .ok (h, .array .f64, (l.map (·.1)).map .ref ++ .ref p :: .real (numVal E .f64 η) ::
          restVals dt rp dl nt np ftn cb) := by
  have hF := fits_of_list hf
  have h9' : (l.map (·.1)).length = 9 := by simpa using h9
  have key : ∀ c : Option (Heap α × Kad × List (CVal α)), (if 1 < (kadOverloads : List (Overload Kad α)).length then c else none) = c := by
    intro c; rw [if_pos (by simp [kadOverloads])]
  by_cases hy : loadReal E false .f64 h η = some (numVal E .f64 η)
  · exact resolve_array E (.inl rfl) h9' hF hp hA hA' hy ..
  · have hn : ∀ d h, loadReal E false d h η = none := (loadReal_false E .f64 h hη).resolve_left hy
    have hl : ∀ c, load E c h (.arr .f64) (.num (.arr p)) = some (h, .ref p) := by
      intro c; simp [load, loadArr, hp, hA, hA']
    have hc : ∀ x ∈ l, rd h x.1 = .ok x.2 ∧ x.2.dtype ≠ .f32 := fun x hx =>
      ⟨(hf x hx).1, by rw [(hf x hx).2.1]; decide⟩
    unfold resolve
    rw [key]
    simp only [kadOverloads, firstOverload, tryMachine E _ h _ h9', tryScalar E _ h _ h9', tryArray E _ h _ h9',
      load9_fit E _ h9' hF, load9_misfit E h9' hF (show DType.f64 ≠ .f32 by decide), Option.bind_some,
      Option.bind_none, hn, hl, loadReal_several E _ _ hp hS, loadReal_true E .f64 h hη, Option.map_some,
      Option.map_none, load9_copy E h9 hc, loadReal_several E _ _ (rd_left hp) hS]

/-- single precision, `phi12` a double precision array: the call works on copies -/
theorem resolve_single_array (E : Env α) {h : Heap α} {l : List (Int × NdArr α)} (h9 : l.length = 9)
    (hf : ∀ x ∈ l, rd h x.1 = .ok x.2 ∧ x.2.dtype = .f32 ∧ x.2.order = .c) {p : Int} {A : NdArr α}
    (hp : rd h p = .ok A) (hA : A.dtype = .f64) (hA' : A.order = .c) (hS : Several A) {η : Num α} (hη : IsNum η)
    (dt rp dl nt np : Int) (ftn : Bool) (cb : PyVal α) :
    resolve E h kadOverloads (refs (l.map (·.1)) ++ tailArgs (.arr p) η dt rp dl nt np ftn cb)
      = .ok (h ++ l.map (fun x => convertArr E .f64 x.2), .array .f64,
          ((List.range 9).map fun i : ℕ => .ref ((h.length : Int) + i)) ++ .ref p :: .real (numVal E .f64 η) ::
          restVals dt rp dl nt np ftn cb) := by
  have hF := fits_of_list hf
  have h9' : (l.map (·.1)).length = 9 := by simpa using h9
  have key : ∀ c : Option (Heap α × Kad × List (CVal α)), (if 1 < (kadOverloads : List (Overload Kad α)).length then c else none) = c := by
    intro c; rw [if_pos (by simp [kadOverloads])]
  have hl : load E false h (.arr .f32) (.num (.arr p)) = none := by simp [load, loadArr, hp, hA]
  have hl2 : ∀ r, load E true (h ++ r) (.arr .f64) (.num (.arr p)) = some (h ++ r, .ref p) := by
    intro r; simp [load, loadArr, rd_left hp, hA, hA']
  have hc : ∀ x ∈ l, rd h x.1 = .ok x.2 ∧ x.2.dtype ≠ .f64 := fun x hx =>
    ⟨(hf x hx).1, by rw [(hf x hx).2.1]; decide⟩
  unfold resolve
  rw [key]
  simp only [kadOverloads, firstOverload, tryMachine E _ h _ h9', tryScalar E _ h _ h9', tryArray E _ h _ h9',
    load9_fit E _ h9' hF, load9_misfit E h9' hF (show DType.f32 ≠ .f64 by decide), Option.bind_some,
    Option.bind_none, hl, hl2, loadReal_several E _ _ hp hS, loadReal_true E .f64 _ hη, Option.map_some,
    load9_copy E h9 hc, loadReal_several E _ _ (rd_left hp) hS]

/-- single precision, `phi12` or `h_ratio` a python `int`: the call works on copies -/
theorem resolve_single_int (E : Env α) (hE : E.intAsFloat = false) {h : Heap α} {l : List (Int × NdArr α)}
    (h9 : l.length = 9) (hf : ∀ x ∈ l, rd h x.1 = .ok x.2 ∧ x.2.dtype = .f32 ∧ x.2.order = .c) {φ η : Num α}
    (hφ : IsNum φ) (hη : IsNum η) (hi : (∃ n, φ = .int n) ∨ ∃ n, η = .int n)
    (dt rp dl nt np : Int) (ftn : Bool) (cb : PyVal α) :
    resolve E h kadOverloads (refs (l.map (·.1)) ++ tailArgs φ η dt rp dl nt np ftn cb)
      = .ok (h ++ l.map (fun x => convertArr E .f64 x.2), .scalar .f64,
          ((List.range 9).map fun i : ℕ => .ref ((h.length : Int) + i)) ++ .real (numVal E .f64 φ) ::
          .real (numVal E .f64 η) :: restVals dt rp dl nt np ftn cb) := by
  have hF := fits_of_list hf
  have h9' : (l.map (·.1)).length = 9 := by simpa using h9
  have key : ∀ c : Option (Heap α × Kad × List (CVal α)), (if 1 < (kadOverloads : List (Overload Kad α)).length then c else none) = c := by
    intro c; rw [if_pos (by simp [kadOverloads])]
  have hl : load E false h (.arr .f32) (.num φ) = none := by
    cases φ with
    | arr a => exact absurd rfl (hφ a)
    | float x => rfl
    | int n => rfl
  have hb : ((loadReal E false .f32 h φ).bind fun x => (loadReal E false .f32 h η).map fun y =>
      (h, Kad.scalar DType.f32, (l.map (·.1)).map CVal.ref ++ .real x :: .real y :: restVals dt rp dl nt np ftn cb)) = none := by
    have : ∀ n, loadReal E false .f32 h (.int n) = none := by intro n; simp [loadReal, hE]
    rcases hi with ⟨n, rfl⟩ | ⟨n, rfl⟩
    · rw [this]; rfl
    · rw [this]; cases loadReal E false .f32 h φ <;> rfl
  have hc : ∀ x ∈ l, rd h x.1 = .ok x.2 ∧ x.2.dtype ≠ .f64 := fun x hx =>
    ⟨(hf x hx).1, by rw [(hf x hx).2.1]; decide⟩
  unfold resolve
  rw [key]
  simp only [kadOverloads, firstOverload, tryMachine E _ h _ h9', tryScalar E _ h _ h9', tryArray E _ h _ h9',
    load9_fit E _ h9' hF, load9_misfit E h9' hF (show DType.f32 ≠ .f64 by decide), Option.bind_some,
    Option.bind_none, hl, hb, loadReal_true E .f64 _ hη, loadReal_true E .f64 _ hφ, Option.map_some,
    load9_copy E h9 hc]

/-! ## single calls -/

/-- An array argument of a `double` routine, conversions allowed: either the caller's array or a new one with the same values. -/
theorem load_arr (E : Env α) (hcv : ∀ x, E.cv .f64 x = x) {h : Heap α} {a : Int} {A : NdArr α} (ha : rd h a = .ok A) :
    ∃ ext a' A', load E true h (.arr .f64) (.num (.arr a)) = some (h ++ ext, .ref a') ∧
      loadArr E true .f64 h a = some (h ++ ext, a') ∧ rd (h ++ ext) a' = .ok A' ∧ A'.rows = A.rows ∧
      A'.dtype = .f64 ∧ A'.order = .c ∧
      ((A.dtype = .f64 ∧ A.order = .c ∧ a' = a) ∨ (¬ (A.dtype = .f64 ∧ A.order = .c) ∧ (h.length : Int) ≤ a')) := by
  by_cases hf : A.dtype = .f64 ∧ A.order = .c
  · exact ⟨[], a, A, by simp [load, loadArr, ha, hf], by simp [loadArr, ha, hf], by simpa using ha, rfl, hf.1, hf.2,
      .inl ⟨hf.1, hf.2, rfl⟩⟩
  · refine ⟨[convertArr E .f64 A], h.length, convertArr E .f64 A, by simp [load, loadArr, ha, hf],
      by simp [loadArr, ha, hf], ?_, ?_, rfl, rfl, .inr ⟨hf, le_refl _⟩⟩
    · simpa [rd] using rd_right h [convertArr E .f64 A] 0
    · have : E.cv .f64 = id := funext hcv
      simp [convertArr, this]

theorem attr_arr (E : Env α) (hcv : ∀ x, E.cv .f64 x = x) {h : Heap α} {a : Int} {A : NdArr α} (ha : rd h a = .ok A) :
    ∃ ext a' A', attrArr E h a = .ok (h ++ ext, a') ∧ rd (h ++ ext) a' = .ok A' ∧ A'.rows = A.rows := by
  obtain ⟨ext, a', A', -, h2, h3, h4, -⟩ := load_arr E hcv ha
  exact ⟨ext, a', A', by simp [attrArr, h2], h3, h4⟩

theorem attr_float (E : Env α) (h : Heap α) {v : Num α} (hv : IsNum v) : attrFloat E h v = .ok (numVal E .f64 v) := by
  unfold attrFloat
  rw [loadReal_true E .f64 h hv]

end Verif.Bind
