import Verif.Lemmas.BindProject
import Verif.Props.Bind
import Verif.Props.Recon
import Mathlib.Algebra.Order.Ring.Rat

/-!
# C104: what `project`, `back_project` and `count_particles_in_bins` do with the caller's arrays
-/

namespace Verif.Props
open Verif.Bind Verif.Spec Finset

section
variable {α : Type} [Add α] (E : Env α) (toInt : α → Int)

omit [Add α] in
theorem load_int (cv : Bool) (h : Heap α) (n : Int) : load E cv h .int (.num (.int n)) = some (h, .int n) := rfl

omit [Add α] in
/-- three array arguments of the routines: where they are found in memory -/
theorem load_three {h : Heap α} {a b c : Int} {A B C : NdArr α} (ha : rd h a = .ok A) (hb : rd h b = .ok B)
    (hc : rd h c = .ok C)
    (hne : (A.dtype = .f64 ∧ A.order = .c) → (C.dtype = .f64 ∧ C.order = .c) → c ≠ a) :
    ∃ e1 e2 e3 a' b' c' A' B' C',
      load E true h (.arr .f64) (.num (.arr a)) = some (h ++ e1, .ref a') ∧
      load E true (h ++ e1) (.arr .i32) (.num (.arr b)) = some (h ++ e1 ++ e2, .ref b') ∧
      load E true (h ++ e1 ++ e2) (.arr .f64) (.num (.arr c)) = some (h ++ e1 ++ e2 ++ e3, .ref c') ∧
      rd (h ++ e1 ++ e2 ++ e3) a' = .ok A' ∧ rd (h ++ e1 ++ e2 ++ e3) b' = .ok B' ∧ rd (h ++ e1 ++ e2 ++ e3) c' = .ok C' ∧
      A'.rows.flatten = valuesAs E .f64 A ∧ B'.rows.flatten = valuesAs E .i32 B ∧ C'.rows.flatten = valuesAs E .f64 C ∧
      A'.rows.map List.length = A.rows.map List.length ∧ A'.dtype = .f64 ∧ A'.order = .c ∧ b' ≠ a' ∧ c' ≠ a' ∧
      (a' = a ↔ A.dtype = .f64 ∧ A.order = .c) ∧ (a' ≠ a → (h.length : Int) ≤ a') := by
  obtain ⟨e1, a', A', l1, r1, v1, s1, t1, o1, d1⟩ := load_as E .f64 ha
  obtain ⟨e2, b', B', l2, r2, v2, -, t2, o2, d2⟩ := load_as E .i32 (rd_left hb (r := e1))
  obtain ⟨e3, c', C', l3, r3, v3, -, t3, o3, d3⟩ := load_as E .f64 (rd_left (rd_left hc (r := e1)) (r := e2))
  have R1 := rd_left (rd_left r1 (r := e2)) (r := e3)
  have R2 := rd_left r2 (r := e3)
  have la := rd_lt ha
  have lc := rd_lt hc
  refine ⟨e1, e2, e3, a', b', c', A', B', C', l1, l2, l3, R1, R2, r3, v1, v2, v3, s1, t1, o1, ?_, ?_, ?_, ?_⟩
  · rintro rfl
    rw [R1] at R2
    cases R2
    rw [t1] at t2
    cases t2
  · rcases d1 with ⟨f1, g1⟩ | ⟨f1, g1, k1⟩
    · rcases d3 with ⟨f3, g3⟩ | ⟨f3, g3, k3⟩
      · rw [g1, g3]; exact hne f1 f3
      · rw [g1]
        rw [List.length_append, List.length_append] at g3
        omega
    · rcases d3 with ⟨f3, g3⟩ | ⟨f3, g3, k3⟩
      · rw [g3]; omega
      · rw [List.length_append] at g3
        omega
  · rcases d1 with ⟨f1, g1⟩ | ⟨f1, g1, k1⟩
    · exact ⟨fun _ => f1, fun _ => g1⟩
    · exact ⟨fun h => by omega, fun h => absurd h f1⟩
  · rcases d1 with ⟨f1, g1⟩ | ⟨f1, g1, k1⟩
    · exact fun h => absurd g1 h
    · exact fun _ => g1

omit [Add α] in
/-- a computation written into array `a'` of the enlarged memory -/
theorem callOf_put {d : DType} {h H : Heap α} (ext : List (NdArr α)) (hH : H = h ++ ext) {a a' : Int} {A A' : NdArr α}
    (hA : rd H a' = .ok A') (hs : A'.rows.map List.length = A.rows.map List.length) (ht : A'.dtype = d) (ho : A'.order = .c)
    (hiff : a' = a ↔ A.dtype = d ∧ A.order = .c) {call : M (Heap α × Int)} {c : M (List α)}
    (hlen : ∀ v, c = .ok v → v.length = A'.rows.flatten.length)
    (hcall : call = (c.map (put H a' A') >>= fun h => pure (h, a'))) : CallOf d h a A call c := by
  constructor
  · intro e he
    rw [hcall, he]; rfl
  · intro v hv
    refine ⟨put H a' A' v, a', by rw [hcall, hv]; rfl, ⟨_, rd_put hA v, ?_, ?_, ht, ho⟩, hiff, ?_⟩
    · exact refill_flatten (hlen v hv)
    · exact (refill_lengths (hlen v hv)).trans hs
    · intro b C hb hne
      rw [rd_put_ne hA hne, hH]
      exact rd_left hb

/-- **C104 (back projection)** For arrays of any element type and memory order: `back_project` ends like the C++ loop on the values
of its arguments (converted where the type differs); it returns the caller's array of weights if that has type `float64` and C
order and a new array otherwise, in the same shape, and changes nothing else.  The weights and the profiles must not be the same
array. -/
theorem C104_back_project_partial {h : Heap α} {a b c : Int} {A B C : NdArr α} (ha : rd h a = .ok A) (hb : rd h b = .ok B)
    (hc : rd h c = .ok C) (hne : (A.dtype = .f64 ∧ A.order = .c) → (C.dtype = .f64 ∧ C.order = .c) → c ≠ a) (n p : Int) :
    CallOf .f64 h a A
      (backProjectCall E toInt h [.num (.arr a), .num (.arr b), .num (.arr c), .num (.int n), .num (.int p)])
      (Recon.backProject (valuesAs E .f64 A) ((valuesAs E .i32 B).map toInt) (valuesAs E .f64 C) n.toNat p.toNat) := by
  obtain ⟨e1, e2, e3, a', b', c', A', B', C', l1, l2, l3, R1, R2, R3, v1, v2, v3, s1, t1, o1, hba, hca, hi, -⟩ :=
    load_three E ha hb hc hne
  have hres : resolve E h [backProjectOverload] [.num (.arr a), .num (.arr b), .num (.arr c), .num (.int n), .num (.int p)] =
      .ok (h ++ e1 ++ e2 ++ e3, (), [.ref a', .ref b', .ref c', .int n, .int p]) := by
    simp [-List.append_assoc, resolve, firstOverload, tryOverload, backProjectOverload, loadAll, l1, l2, l3, load_int]
  have key := backProjectMem_eq toInt R1 R2 R3 hba hca n.toNat p.toNat
  rw [v1, v2, v3] at key
  refine callOf_put (e1 ++ e2 ++ e3) (by simp) R1 s1 t1 o1 hi (fun v hv => by rw [v1]; exact key.2 v hv) ?_
  unfold backProjectCall
  rw [hres, bind_ok]
  dsimp only
  rw [key.1]

/-- **C104 (projection)** For arrays of any element type and memory order: `project` ends like the C++ loop on the values of its
arguments; it returns the caller's array of profiles if that has type `float64` and C order and a new array otherwise, in the same
shape, and changes nothing else.  The number of bins it is given has no effect.  The profiles and the weights must not be the same
array. -/
theorem C104_project_partial {h : Heap α} {a b c : Int} {A B C : NdArr α} (ha : rd h a = .ok A) (hb : rd h b = .ok B)
    (hc : rd h c = .ok C) (hne : (A.dtype = .f64 ∧ A.order = .c) → (C.dtype = .f64 ∧ C.order = .c) → c ≠ a) (n p k : Int) :
    CallOf .f64 h a A
      (projectCall E toInt h [.num (.arr a), .num (.arr b), .num (.arr c), .num (.int n), .num (.int p), .num (.int k)])
      (Recon.project (valuesAs E .f64 A) ((valuesAs E .i32 B).map toInt) (valuesAs E .f64 C) n.toNat p.toNat) := by
  obtain ⟨e1, e2, e3, a', b', c', A', B', C', l1, l2, l3, R1, R2, R3, v1, v2, v3, s1, t1, o1, hba, hca, hi, -⟩ :=
    load_three E ha hb hc hne
  have hres : resolve E h [projectOverload]
      [.num (.arr a), .num (.arr b), .num (.arr c), .num (.int n), .num (.int p), .num (.int k)] =
      .ok (h ++ e1 ++ e2 ++ e3, (), [.ref a', .ref b', .ref c', .int n, .int p, .int k]) := by
    simp [-List.append_assoc, resolve, firstOverload, tryOverload, projectOverload, loadAll, l1, l2, l3, load_int]
  have key := projectMem_eq toInt R1 R2 R3 hba hca n.toNat p.toNat
  rw [v1, v2, v3] at key
  refine callOf_put (e1 ++ e2 ++ e3) (by simp) R1 s1 t1 o1 hi (fun v hv => by rw [v1]; exact key.2 v hv) ?_
  unfold projectCall
  rw [hres, bind_ok]
  dsimp only
  rw [key.1]

end

section
variable {α : Type} [Add α] [One α] (E : Env α) (toInt : α → Int)

omit [Add α] [One α] in
theorem resolve_pair (h : Heap α) (o1 o2 : Overload DType α) (args : List (PyVal α)) :
    resolve E h [o1, o2] args =
      match tryOverload E false h o1 args, tryOverload E false h o2 args, tryOverload E true h o1 args,
        tryOverload E true h o2 args with
      | some r, _, _, _ => .ok r
      | none, some r, _, _ => .ok r
      | none, none, some r, _ => .ok r
      | none, none, none, some r => .ok r
      | none, none, none, none => .error (.exc .typeError) := by
  simp only [resolve, firstOverload, List.length_cons, List.length_nil]
  rw [if_pos (by omega)]
  cases tryOverload E false h o1 args <;> cases tryOverload E false h o2 args <;>
    cases tryOverload E true h o1 args <;> cases tryOverload E true h o2 args <;> rfl

omit [Add α] [One α] in
theorem load_fit {d : DType} {h : Heap α} {a : Int} {A : NdArr α} (ha : rd h a = .ok A) (hd : A.dtype = d) (ho : A.order = .c)
    (cv : Bool) : load E cv h (.arr d) (.num (.arr a)) = some (h, .ref a) := by
  simp [load, loadArr, ha, hd, ho]

omit [Add α] [One α] in
theorem load_misfit {d : DType} {h : Heap α} {a : Int} {A : NdArr α} (ha : rd h a = .ok A) (hd : ¬ (A.dtype = d ∧ A.order = .c)) :
    load E false h (.arr d) (.num (.arr a)) = none := by
  simp [load, loadArr, ha, hd]

/-- the element type in which a call of `count_particles_in_bins` counts -/
def countType (A B : NdArr α) : DType :=
  if A.dtype = .f32 ∧ A.order = .c ∧ B.dtype = .i32 ∧ B.order = .c then .f32 else .f64

/-- **C104 (counting)** For arrays of any element type and memory order: `count_particles_in_bins` ends like the C++ loop on the
values of its arguments.  It counts in `float32` if the array of counts has that type, in C order, and the coordinates are `int32`
in C order; in `float64` in all other cases.  It returns the caller's array if that has the type counted in and C order and a new
array otherwise, in the same shape, and changes nothing else. -/
theorem C104_count {h : Heap α} {a b : Int} {A B : NdArr α} (ha : rd h a = .ok A) (hb : rd h b = .ok B) (p n k : Int) :
    CallOf (countType A B) h a A
      (countCall E toInt h [.num (.arr a), .num (.arr b), .num (.int p), .num (.int n), .num (.int k)])
      (Recon.countParticlesInBin (valuesAs E (countType A B) A) ((valuesAs E .i32 B).map toInt) p.toNat n.toNat k.toNat) := by
  by_cases hf : A.dtype = .f32 ∧ A.order = .c ∧ B.dtype = .i32 ∧ B.order = .c
  · obtain ⟨f1, f2, f3, f4⟩ := hf
    have hct : countType A B = .f32 := by simp [countType, f1, f2, f3, f4]
    have hba : b ≠ a := by
      rintro rfl
      rw [ha] at hb
      cases hb
      rw [f1] at f3
      cases f3
    have hres : resolve E h countOverloads [.num (.arr a), .num (.arr b), .num (.int p), .num (.int n), .num (.int k)] =
        .ok (h, .f32, [.ref a, .ref b, .int p, .int n, .int k]) := by
      unfold countOverloads
      rw [resolve_pair]
      simp [tryOverload, countOverload, loadAll, load_fit E ha f1 f2, load_fit E hb f3 f4,
        load_misfit E ha (d := .f64) (by rw [f1]; simp), load_int]
    have v1 : valuesAs E .f32 A = A.rows.flatten := by simp [valuesAs, f1, f2]
    have v2 : valuesAs E .i32 B = B.rows.flatten := by simp [valuesAs, f3, f4]
    have key := countMem_eq toInt ha hb hba n.toNat p.toNat k.toNat
    rw [hct, v1, v2]
    refine callOf_put [] (by simp) ha rfl f1 f2 (by simp [f1, f2]) (fun v hv => key.2 v hv) ?_
    unfold countCall
    rw [hres, bind_ok]
    dsimp only
    rw [key.1]
  · have hct : countType A B = .f64 := by simp only [countType, if_neg hf]
    obtain ⟨e1, a', A', l1, r1, v1, s1, t1, o1, d1⟩ := load_as E .f64 ha
    obtain ⟨e2, b', B', l2, r2, v2, -, t2, o2, d2⟩ := load_as E .i32 (rd_left hb (r := e1))
    have R1 := rd_left r1 (r := e2)
    have la := rd_lt ha
    have hba : b' ≠ a' := by
      rintro rfl
      rw [R1] at r2
      cases r2
      rw [t1] at t2
      cases t2
    have hi : a' = a ↔ A.dtype = .f64 ∧ A.order = .c := by
      rcases d1 with ⟨f1, g1⟩ | ⟨f1, g1, k1⟩
      · exact ⟨fun _ => f1, fun _ => g1⟩
      · exact ⟨fun h => by omega, fun h => absurd h f1⟩
    have hres : ∃ u, resolve E h countOverloads [.num (.arr a), .num (.arr b), .num (.int p), .num (.int n), .num (.int k)] =
        .ok (h ++ e1 ++ e2, u, [.ref a', .ref b', .int p, .int n, .int k]) := by
      unfold countOverloads
      rw [resolve_pair]
      have c64 : tryOverload E true h (countOverload .f64)
          [.num (.arr a), .num (.arr b), .num (.int p), .num (.int n), .num (.int k)] =
          some (h ++ e1 ++ e2, .f64, [.ref a', .ref b', .int p, .int n, .int k]) := by
        simp [-List.append_assoc, tryOverload, countOverload, loadAll, l1, l2, load_int]
      by_cases hB : B.dtype = .i32 ∧ B.order = .c
      · have n32 : tryOverload E false h (countOverload .f32)
            [.num (.arr a), .num (.arr b), .num (.int p), .num (.int n), .num (.int k)] = none := by
          have : ¬ (A.dtype = .f32 ∧ A.order = .c) := fun hA => hf ⟨hA.1, hA.2, hB.1, hB.2⟩
          simp [tryOverload, countOverload, loadAll, load_misfit E ha this]
        by_cases hA : A.dtype = .f64 ∧ A.order = .c
        · have n64 : tryOverload E false h (countOverload .f64)
              [.num (.arr a), .num (.arr b), .num (.int p), .num (.int n), .num (.int k)] =
              some (h, .f64, [.ref a, .ref b, .int p, .int n, .int k]) := by
            simp [tryOverload, countOverload, loadAll, load_fit E ha hA.1 hA.2, load_fit E hb hB.1 hB.2, load_int]
          have h1 := l1
          rw [load_fit E ha hA.1 hA.2, Option.some.injEq, Prod.mk.injEq, CVal.ref.injEq] at h1
          have h2 := l2
          rw [← h1.1, load_fit E hb hB.1 hB.2, Option.some.injEq, Prod.mk.injEq, CVal.ref.injEq] at h2
          refine ⟨.f64, ?_⟩
          rw [n64, ← h2.2, ← h1.2, ← h1.1, ← h2.1]
        · have n64 : tryOverload E false h (countOverload .f64)
              [.num (.arr a), .num (.arr b), .num (.int p), .num (.int n), .num (.int k)] = none := by
            simp [tryOverload, countOverload, loadAll, load_misfit E ha hA]
          exact ⟨.f64, by rw [n64, n32, c64]⟩
      · have none_of : ∀ d, tryOverload E false h (countOverload d)
            [.num (.arr a), .num (.arr b), .num (.int p), .num (.int n), .num (.int k)] = none := by
          intro d
          by_cases hA : A.dtype = d ∧ A.order = .c
          · simp [tryOverload, countOverload, loadAll, load_fit E ha hA.1 hA.2, load_misfit E hb hB]
          · simp [tryOverload, countOverload, loadAll, load_misfit E ha hA]
        exact ⟨.f64, by rw [none_of, none_of, c64]⟩
    obtain ⟨u, hres⟩ := hres
    have key := countMem_eq toInt R1 r2 hba n.toNat p.toNat k.toNat
    have v2' : B'.rows.flatten = valuesAs E .i32 B := v2
    rw [v1, v2'] at key
    rw [hct]
    refine callOf_put (e1 ++ e2) (by simp) R1 s1 t1 o1 hi (fun v hv => by rw [v1]; exact key.2 v hv) ?_
    unfold countCall
    rw [hres, bind_ok]
    dsimp only
    rw [key.1]

/-- **C104 (counting), consequence**: whether the caller's `float32` array is written to depends on the type of the coordinates.
With `int32` coordinates in C order it is, with any others the counts are in a new `float64` array and the caller's is untouched. -/
theorem C104_violated_count_in_place {h : Heap α} {a b : Int} {A B : NdArr α} (ha : rd h a = .ok A) (hb : rd h b = .ok B)
    (hA : A.dtype = .f32) (hB : ¬ (B.dtype = .i32 ∧ B.order = .c)) (p n k : Int) {h' : Heap α} {r : Int}
    (hr : countCall E toInt h [.num (.arr a), .num (.arr b), .num (.int p), .num (.int n), .num (.int k)] = .ok (h', r)) :
    r ≠ a ∧ rd h' a = .ok A ∧ ∃ R, rd h' r = .ok R ∧ R.dtype = .f64 := by
  have hct : countType A B = .f64 := by
    unfold countType
    rw [if_neg (fun hf => hB ⟨hf.2.2.1, hf.2.2.2⟩)]
  have key := C104_count E toInt ha hb p n k
  rw [hct] at key
  cases hc : Recon.countParticlesInBin (valuesAs E .f64 A) ((valuesAs E .i32 B).map toInt) p.toNat n.toNat k.toNat with
  | error e => rw [key.1 e hc] at hr; cases hr
  | ok v =>
    obtain ⟨g, s, hs, ⟨R, hR, -, -, hd, -⟩, hi, hrest⟩ := key.2 v hc
    rw [hr] at hs
    cases hs
    have hne : r ≠ a := fun e => by
      have := (hi.mp e).1
      rw [hA] at this
      cases this
    exact ⟨hne, hrest a A ha (fun e => hne e.symm), R, hR, hd⟩

end

section values
variable {K : Type} [Field K] [LinearOrder K] [IsStrictOrderedRing K] (E : Env K) (toInt : K → Int)

/-- **C104 (values)** For coordinates in the image the array `back_project` returns holds, for every particle, its old weight plus the
profile values at its bins, and the array `project` returns holds, for every bin, its old content plus the weights of the particles
in it; in whichever element types and orders the arrays came. -/
theorem C104_values_partial {npart nprof nbins : ℕ} {x : ℕ → ℕ → ℕ} (hx : InRange npart nprof nbins x) {h : Heap K} {a b c : Int}
    {A B C : NdArr K} (ha : rd h a = .ok A) (hb : rd h b = .ok B) (hc : rd h c = .ok C) (hca : c ≠ a) (w : ℕ → K)
    (f : ℕ → ℕ → K) (hB : (valuesAs E .i32 B).map toInt = fpbuf npart nprof nbins x) :
    (valuesAs E .f64 A = tab npart w → valuesAs E .f64 C = flat nprof nbins f →
      ∃ h' r, backProjectCall E toInt h [.num (.arr a), .num (.arr b), .num (.arr c), .num (.int npart), .num (.int nprof)] =
          .ok (h', r) ∧
        WrittenTo .f64 h h' a r A (tab npart fun i => w i + ∑ p ∈ range nprof, f p (x i p))) ∧
    (valuesAs E .f64 A = flat nprof nbins f → valuesAs E .f64 C = tab npart w → ∀ k : Int,
      ∃ h' r, projectCall E toInt h [.num (.arr a), .num (.arr b), .num (.arr c), .num (.int npart), .num (.int nprof),
          .num (.int k)] = .ok (h', r) ∧
        WrittenTo .f64 h h' a r A
          (flat nprof nbins fun p b => f p b + ∑ i ∈ (range npart).filter (fun i => x i p = b), w i)) := by
  constructor
  · intro hA hC
    refine (C104_back_project_partial E toInt ha hb hc (fun _ _ => hca) npart nprof).2 _ ?_
    rw [hA, hB, hC, Int.toNat_natCast, Int.toNat_natCast]
    exact C01_back_project hx w f
  · intro hA hC k
    refine (C104_project_partial E toInt ha hb hc (fun _ _ => hca) npart nprof k).2 _ ?_
    rw [hA, hB, hC, Int.toNat_natCast, Int.toNat_natCast]
    exact C02_project hx w f

omit [Field K] [LinearOrder K] [IsStrictOrderedRing K] in
theorem rd_fill {h : Heap K} {a : Int} {A : NdArr K} (ha : rd h a = .ok A) (v : K) :
    ∃ h1, fillCall h a v = .ok h1 ∧ rd h1 a = .ok { A with rows := A.rows.map (·.map fun _ => v) } ∧
      ∀ b, b ≠ a → rd h1 b = rd h b := by
  obtain ⟨h1, u1, -, u2, u3⟩ := upd_spec (w := { A with rows := A.rows.map (·.map fun _ => v) }) ha
  exact ⟨h1, by unfold fillCall; rw [ha, bind_ok, u1], u2, u3⟩

/-- **C104 (one array for all projections)** Whatever an array held: cleared with `a[:] = 0.0` and handed to `project`, it holds the
projection of the weights, and nothing of what it held before; without clearing it the projections add up (`C104_values_partial`). -/
theorem C104_reuse {npart nprof nbins : ℕ} {x : ℕ → ℕ → ℕ} (hx : InRange npart nprof nbins x) {h : Heap K} {a b c : Int}
    {A B C : NdArr K} (ha : rd h a = .ok A) (hb : rd h b = .ok B) (hc : rd h c = .ok C) (hba : b ≠ a) (hca : c ≠ a)
    (hd : A.dtype = .f64) (ho : A.order = .c) (hn : A.rows.flatten.length = nprof * nbins) (w : ℕ → K)
    (hB : (valuesAs E .i32 B).map toInt = fpbuf npart nprof nbins x) (hC : valuesAs E .f64 C = tab npart w) (k : Int) :
    ∃ h1 h', fillCall h a 0 = .ok h1 ∧
      projectCall E toInt h1 [.num (.arr a), .num (.arr b), .num (.arr c), .num (.int npart), .num (.int nprof), .num (.int k)] =
        .ok (h', a) ∧
      (∃ R, rd h' a = .ok R ∧
        R.rows.flatten = flat nprof nbins (fun p b => ∑ i ∈ (range npart).filter (fun i => x i p = b), w i)) ∧
      ∀ d D, rd h d = .ok D → d ≠ a → rd h' d = .ok D := by
  obtain ⟨h1, u1, u2, u3⟩ := rd_fill ha (0 : K)
  have hv : valuesAs E .f64 { A with rows := A.rows.map (·.map fun _ => (0 : K)) } = flat nprof nbins (fun _ _ => (0 : K)) := by
    simp only [valuesAs, hd, ho, and_self, if_true]
    rw [← List.map_flatten, List.map_const', hn]
    unfold flat tab
    rw [List.map_const', List.length_range]
  obtain ⟨h', r, hcall, ⟨R, hR, hval, -⟩, hi, hrest⟩ := (C104_values_partial E toInt hx u2 (by rw [u3 b hba]; exact hb)
    (by rw [u3 c hca]; exact hc) hca w (fun _ _ => 0) hB).2 hv hC k
  have hra : r = a := hi.mpr ⟨hd, ho⟩
  subst hra
  refine ⟨h1, h', u1, hcall, ⟨R, hR, ?_⟩, fun d D hD hne => hrest d D (by rw [u3 d hne]; exact hD) hne⟩
  rw [hval]
  exact congrArg _ (by funext p b; rw [zero_add])

end values

/-- the integer an element of an `int32` array stands for -/
def elemInt (x : ℚ) : Int := x.floor

/-- C104 is violated when the same array is given for the weights and the profiles: the loop reads weights it has already changed.
Two particles with the weights 1 and 2, one profile with the values 1 and 2, the particles in the opposite bins: from a copy of the
array the new weights are 3 and 3, from the array itself 3 and 5. -/
theorem C104_violated_same_array :
    (backProjectCall envQ elemInt [⟨.f64, .c, [[1, 2]]⟩, ⟨.i32, .c, [[1], [0]]⟩, ⟨.f64, .c, [[1, 2]]⟩]
      [.num (.arr 0), .num (.arr 1), .num (.arr 2), .num (.int 2), .num (.int 1)] >>= fun r => rowsAt r.1 r.2) = .ok [[3, 3]] ∧
    (backProjectCall envQ elemInt [⟨.f64, .c, [[1, 2]]⟩, ⟨.i32, .c, [[1], [0]]⟩]
      [.num (.arr 0), .num (.arr 1), .num (.arr 0), .num (.int 2), .num (.int 1)] >>= fun r => rowsAt r.1 r.2) = .ok [[3, 5]] := by
  decide +kernel

/-- three particles, two profiles of two bins: a projection into the caller's array, into a new one for a `float32` array, and twice
into the same array -/
example :
    projectCall envQ elemInt [⟨.f64, .c, [[0, 0], [0, 0]]⟩, ⟨.i32, .c, [[0, 2], [1, 2], [1, 3]]⟩, ⟨.f32, .c, [[1, 2, 3]]⟩]
      [.num (.arr 0), .num (.arr 1), .num (.arr 2), .num (.int 3), .num (.int 2), .num (.int 2)] =
        .ok ([⟨.f64, .c, [[1, 5], [3, 3]]⟩, ⟨.i32, .c, [[0, 2], [1, 2], [1, 3]]⟩, ⟨.f32, .c, [[1, 2, 3]]⟩,
          ⟨.f64, .c, [[1, 2, 3]]⟩], 0) ∧
    (projectCall envQ elemInt [⟨.f32, .c, [[0, 0], [0, 0]]⟩, ⟨.i32, .c, [[0, 2], [1, 2], [1, 3]]⟩, ⟨.f64, .c, [[1, 2, 3]]⟩]
      [.num (.arr 0), .num (.arr 1), .num (.arr 2), .num (.int 3), .num (.int 2), .num (.int 2)]).map (fun r => (r.2, r.1.take 1)) =
        .ok (3, [⟨.f32, .c, [[0, 0], [0, 0]]⟩]) ∧
    (do
      let r ← projectCall envQ elemInt [⟨.f64, .c, [[0, 0], [0, 0]]⟩, ⟨.i32, .c, [[0, 2], [1, 2], [1, 3]]⟩, ⟨.f64, .c, [[1, 2, 3]]⟩]
        [.num (.arr 0), .num (.arr 1), .num (.arr 2), .num (.int 3), .num (.int 2), .num (.int 2)]
      let r ← projectCall envQ elemInt r.1
        [.num (.arr 0), .num (.arr 1), .num (.arr 2), .num (.int 3), .num (.int 2), .num (.int 2)]
      rowsAt r.1 r.2) = .ok [[2, 10], [6, 6]] := by
  decide +kernel

/-- the coordinates of the example are in the image, and its `int32` array holds the points of the flattened profiles -/
example : (valuesAs envQ .i32 ⟨.i32, .c, [[0, 2], [1, 2], [1, 3]]⟩).map elemInt =
      fpbuf 3 2 2 (fun i p => if p = 0 then (if i = 0 then 0 else 1) else (if i = 2 then 1 else 0)) ∧
    InRange 3 2 2 (fun i p => if p = 0 then (if i = 0 then 0 else 1) else (if i = 2 then 1 else 0)) := by
  refine ⟨by decide +kernel, fun i p _ _ => ?_⟩
  dsimp only
  split <;> split <;> omega

/-- counting with `int64` coordinates leaves a `float32` array of counts as it was; with `int32` coordinates it is filled -/
example :
    (countCall envQ elemInt [⟨.f32, .c, [[0, 0], [0, 0]]⟩, ⟨.other, .c, [[0, 0], [1, 0], [1, 1]]⟩]
      [.num (.arr 0), .num (.arr 1), .num (.int 2), .num (.int 3), .num (.int 2)]) =
        .ok ([⟨.f32, .c, [[0, 0], [0, 0]]⟩, ⟨.other, .c, [[0, 0], [1, 0], [1, 1]]⟩, ⟨.f64, .c, [[1, 2], [2, 1]]⟩,
          ⟨.i32, .c, [[0, 0], [1, 0], [1, 1]]⟩], 2) ∧
    (countCall envQ elemInt [⟨.f32, .c, [[0, 0], [0, 0]]⟩, ⟨.i32, .c, [[0, 0], [1, 0], [1, 1]]⟩]
      [.num (.arr 0), .num (.arr 1), .num (.int 2), .num (.int 3), .num (.int 2)]) =
        .ok ([⟨.f32, .c, [[1, 2], [2, 1]]⟩, ⟨.i32, .c, [[0, 0], [1, 0], [1, 1]]⟩], 0) := by
  decide +kernel

end Verif.Props
