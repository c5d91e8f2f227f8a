import Verif.Model.BindCount
import Verif.Props.BindProject
import Verif.Lemmas.Multi

/-!
# C104: `count_particles_in_bins_multi` and the caller's arrays
-/

namespace Verif.Bind
variable {α : Type} [Add α] [One α] {h : Heap α} {a b c : Int} {A B C : NdArr α} (toInt : α → Int)

theorem countMultiMem_eq (ha : rd h a = .ok A) (hb : rd h b = .ok B) (hc : rd h c = .ok C) (hba : b ≠ a) (hca : c ≠ a) (p n k m : ℕ) :
    countMultiMem toInt a b c p n k m h =
        (Multi.countMulti A.rows.flatten (B.rows.flatten.map toInt) (C.rows.flatten.map toInt) p n k m).map (put h a A) ∧
      ∀ v, Multi.countMulti A.rows.flatten (B.rows.flatten.map toInt) (C.rows.flatten.map toInt) p n k m = .ok v →
        v.length = A.rows.flatten.length := by
  unfold countMultiMem Multi.countMulti
  refine forN_from (put h a A) (fun l => l.length = A.rows.flatten.length) ?_ rfl (put_self ha)
  intro q l hl
  refine forN_image (put h a A) (fun l => l.length = A.rows.flatten.length) ?_ hl
  intro j l hl
  refine forN_image (put h a A) (fun l => l.length = A.rows.flatten.length) ?_ hl
  intro i l hl
  rw [getAt_put_ne ha hb hba, rd_map]
  cases rd B.rows.flatten ((j * p + i : ℕ) : Int) with
  | error e => exact ⟨rfl, fun t ht => by cases ht⟩
  | ok v =>
    simp only [bind_ok, Except.map]
    rw [getAt_put_ne ha hc hca, rd_map]
    cases rd C.rows.flatten (q : Int) with
    | error e => exact ⟨rfl, fun t ht => by cases ht⟩
    | ok ctr =>
      simp only [bind_ok, Except.map]
      rw [getAt_put ha hl]
      cases rd l (toInt v + toInt ctr + (i * k : ℕ)) with
      | error e => exact ⟨rfl, fun t ht => by cases ht⟩
      | ok x =>
        simp only [bind_ok]
        exact ⟨setAt_put ha hl _ _, fun t ht => (upd_len ht).trans hl⟩

end Verif.Bind

namespace Verif.Props
open Verif.Bind Verif.Spec Finset

section
variable {α : Type} [Add α] [One α] (E : Env α) (toInt : α → Int)

/-- the element type in which a call of `count_particles_in_bins_multi` counts -/
def countMultiType (A B C : NdArr α) : DType :=
  if A.dtype = .f32 ∧ A.order = .c ∧ B.dtype = .i32 ∧ B.order = .c ∧ C.dtype = .i32 ∧ C.order = .c then .f32 else .f64

/-- **C104 (counting for several bunches)** For arrays of any element type and memory order: `count_particles_in_bins_multi` ends like
the C++ loop on the values of its arguments.  It counts in `float32` if the array of counts has that type, in C order, and coordinates
and bunch positions are `int32` in C order; in `float64` in all other cases.  It returns the caller's array if that has the type counted
in and C order and a new array otherwise, in the same shape, and changes nothing else. -/
theorem C104_count_multi {h : Heap α} {a b c : Int} {A B C : NdArr α} (ha : rd h a = .ok A) (hb : rd h b = .ok B) (hc : rd h c = .ok C)
    (p n k m : Int) :
    CallOf (countMultiType A B C) h a A
      (countMultiCall E toInt h [.num (.arr a), .num (.arr b), .num (.arr c), .num (.int p), .num (.int n), .num (.int k), .num (.int m)])
      (Multi.countMulti (valuesAs E (countMultiType A B C) A) ((valuesAs E .i32 B).map toInt) ((valuesAs E .i32 C).map toInt)
        p.toNat n.toNat k.toNat m.toNat) := by
  set args : List (PyVal α) :=
    [.num (.arr a), .num (.arr b), .num (.arr c), .num (.int p), .num (.int n), .num (.int k), .num (.int m)] with hargs
  by_cases hf : A.dtype = .f32 ∧ A.order = .c ∧ B.dtype = .i32 ∧ B.order = .c ∧ C.dtype = .i32 ∧ C.order = .c
  · have hct : countMultiType A B C = .f32 := by simp only [countMultiType, if_pos hf]
    obtain ⟨f1, f2, f3, f4, f5, f6⟩ := hf
    have hba : b ≠ a := by
      rintro rfl
      rw [ha] at hb
      cases hb
      rw [f1] at f3
      cases f3
    have hca : c ≠ a := by
      rintro rfl
      rw [ha] at hc
      cases hc
      rw [f1] at f5
      cases f5
    have hres : resolve E h countMultiOverloads args = .ok (h, .f32, [.ref a, .ref b, .ref c, .int p, .int n, .int k, .int m]) := by
      unfold countMultiOverloads
      rw [resolve_pair]
      simp [hargs, tryOverload, countMultiOverload, loadAll, load_fit E ha f1 f2, load_fit E hb f3 f4, load_fit E hc f5 f6,
        load_misfit E ha (d := .f64) (by rw [f1]; simp), load_int]
    have v1 : valuesAs E .f32 A = A.rows.flatten := by simp [valuesAs, f1, f2]
    have v2 : valuesAs E .i32 B = B.rows.flatten := by simp [valuesAs, f3, f4]
    have v3 : valuesAs E .i32 C = C.rows.flatten := by simp [valuesAs, f5, f6]
    have key := countMultiMem_eq toInt ha hb hc hba hca p.toNat n.toNat k.toNat m.toNat
    rw [hct, v1, v2, v3]
    refine callOf_put [] (by simp) ha rfl f1 f2 (by simp [f1, f2]) (fun v hv => key.2 v hv) ?_
    unfold countMultiCall
    rw [hres, bind_ok]
    dsimp only
    rw [key.1]
  · have hct : countMultiType A B C = .f64 := by simp only [countMultiType, if_neg hf]
    obtain ⟨e1, a', A', l1, r1, v1, s1, t1, o1, d1⟩ := load_as E .f64 ha
    obtain ⟨e2, b', B', l2, r2, v2, -, t2, o2, d2⟩ := load_as E .i32 (rd_left hb (r := e1))
    obtain ⟨e3, c', C', l3, r3, v3, -, t3, o3, d3⟩ := load_as E .i32 (rd_left (rd_left hc (r := e1)) (r := e2))
    have R1 := rd_left (rd_left r1 (r := e2)) (r := e3)
    have R2 := rd_left r2 (r := e3)
    have la := rd_lt ha
    have hba : b' ≠ a' := by
      rintro rfl
      rw [R1] at R2
      cases R2
      rw [t1] at t2
      cases t2
    have hca : c' ≠ a' := by
      rintro rfl
      rw [R1] at r3
      cases r3
      rw [t1] at t3
      cases t3
    have hi : a' = a ↔ A.dtype = .f64 ∧ A.order = .c := by
      rcases d1 with ⟨f1, g1⟩ | ⟨f1, g1, k1⟩
      · exact ⟨fun _ => f1, fun _ => g1⟩
      · exact ⟨fun h => by omega, fun h => absurd h f1⟩
    have hres : ∃ u, resolve E h countMultiOverloads args =
        .ok (h ++ e1 ++ e2 ++ e3, u, [.ref a', .ref b', .ref c', .int p, .int n, .int k, .int m]) := by
      unfold countMultiOverloads
      rw [resolve_pair]
      have c64 : tryOverload E true h (countMultiOverload .f64) args =
          some (h ++ e1 ++ e2 ++ e3, .f64, [.ref a', .ref b', .ref c', .int p, .int n, .int k, .int m]) := by
        simp [-List.append_assoc, hargs, tryOverload, countMultiOverload, loadAll, l1, l2, l3, load_int]
      have none_of : ∀ d, ¬ ((A.dtype = d ∧ A.order = .c) ∧ (B.dtype = .i32 ∧ B.order = .c) ∧ (C.dtype = .i32 ∧ C.order = .c)) →
          tryOverload E false h (countMultiOverload d) args = none := by
        intro d hd
        by_cases hA : A.dtype = d ∧ A.order = .c
        · by_cases hB : B.dtype = .i32 ∧ B.order = .c
          · have hC : ¬ (C.dtype = .i32 ∧ C.order = .c) := fun hC => hd ⟨hA, hB, hC⟩
            simp [hargs, tryOverload, countMultiOverload, loadAll, load_fit E ha hA.1 hA.2, load_fit E hb hB.1 hB.2, load_misfit E hc hC]
          · simp [hargs, tryOverload, countMultiOverload, loadAll, load_fit E ha hA.1 hA.2, load_misfit E hb hB]
        · simp [hargs, tryOverload, countMultiOverload, loadAll, load_misfit E ha hA]
      have n32 := none_of .f32 (fun hh => hf ⟨hh.1.1, hh.1.2, hh.2.1.1, hh.2.1.2, hh.2.2.1, hh.2.2.2⟩)
      by_cases hall : (A.dtype = .f64 ∧ A.order = .c) ∧ (B.dtype = .i32 ∧ B.order = .c) ∧ (C.dtype = .i32 ∧ C.order = .c)
      · obtain ⟨hA, hB, hC⟩ := hall
        have n64 : tryOverload E false h (countMultiOverload .f64) args =
            some (h, .f64, [.ref a, .ref b, .ref c, .int p, .int n, .int k, .int m]) := by
          simp [hargs, tryOverload, countMultiOverload, loadAll, load_fit E ha hA.1 hA.2, load_fit E hb hB.1 hB.2,
            load_fit E hc hC.1 hC.2, load_int]
        have h1 := l1
        rw [load_fit E ha hA.1 hA.2, Option.some.injEq, Prod.mk.injEq, CVal.ref.injEq] at h1
        have h2 := l2
        rw [← h1.1, load_fit E hb hB.1 hB.2, Option.some.injEq, Prod.mk.injEq, CVal.ref.injEq] at h2
        have h3 := l3
        rw [← h1.1, ← h2.1, load_fit E hc hC.1 hC.2, Option.some.injEq, Prod.mk.injEq, CVal.ref.injEq] at h3
        refine ⟨.f64, ?_⟩
        rw [n64, ← h3.2, ← h2.2, ← h1.2, ← h1.1, ← h2.1, ← h3.1]
      · exact ⟨.f64, by rw [none_of .f64 hall, n32, c64]⟩
    obtain ⟨u, hres⟩ := hres
    have key := countMultiMem_eq toInt R1 R2 r3 hba hca p.toNat n.toNat k.toNat m.toNat
    have v2' : B'.rows.flatten = valuesAs E .i32 B := v2
    have v3' : C'.rows.flatten = valuesAs E .i32 C := v3
    rw [v1, v2', v3'] at key
    rw [hct]
    refine callOf_put (e1 ++ e2 ++ e3) (by simp) R1 s1 t1 o1 hi (fun v hv => by rw [v1]; exact key.2 v hv) ?_
    unfold countMultiCall
    rw [hres, bind_ok]
    dsimp only
    rw [key.1]

end

section values
variable {K : Type} [Field K] [LinearOrder K] [IsStrictOrderedRing K] (E : Env K) (toInt : K → Int)

/-- **C104 (counts of several bunches)** From zeros, with all bunches in the image, the array returned holds in every bin of every profile
the number of pairs of a bunch and a particle that lie there; in whichever element types and orders the arrays came. -/
theorem C104_count_multi_values {nc npart nprof nbins : ℕ} {x : ℕ → ℕ → ℕ} {ctr : ℕ → ℤ} (hx : InImage nc npart nprof nbins x ctr)
    {h : Heap K} {a b c : Int} {A B C : NdArr K} (ha : rd h a = .ok A) (hb : rd h b = .ok B) (hc : rd h c = .ok C)
    (hA : valuesAs E (countMultiType A B C) A = flat nprof nbins fun _ _ => 0) (hB : (valuesAs E .i32 B).map toInt = xbuf npart nprof x)
    (hC : (valuesAs E .i32 C).map toInt = tab nc ctr) :
    ∃ g r R, countMultiCall E toInt h [.num (.arr a), .num (.arr b), .num (.arr c), .num (.int nprof), .num (.int npart), .num (.int nbins),
        .num (.int nc)] = .ok (g, r) ∧ rd g r = .ok R ∧
      R.rows.flatten = flat nprof nbins (fun p k => ((∑ q ∈ range nc, ((range npart).filter fun i => (x i p : ℤ) + ctr q = k).card : ℕ) : K)) ∧
      (r = a ↔ A.dtype = countMultiType A B C ∧ A.order = .c) := by
  have key := C104_count_multi E toInt ha hb hc nprof npart nbins nc
  rw [hA, hB, hC] at key
  obtain ⟨g, r, hg, ⟨R, hR, hv, -⟩, hi, -⟩ := key.2 _ (Multi.countMulti_ok hx)
  refine ⟨g, r, R, hg, hR, ?_, hi⟩
  rw [hv]
  apply flat_congr
  intro p k hp _
  congr 1
  unfold countAll
  refine sum_congr rfl fun q hq => ?_
  unfold count
  congr 1
  refine filter_congr fun i hi => ?_
  have := (hx q (mem_range.mp hq) i (mem_range.mp hi) p hp).1
  unfold moved
  omega

end values

/-- two bunches two bins apart, two particles, one profile of four bins: `float64` counts go to the caller's array, `float32` ones too if
the positions are `int32`; with `int64` positions the counts are in a new array -/
example :
    countMultiCall envQ elemInt [⟨.f64, .c, [[0, 0, 0, 0]]⟩, ⟨.i32, .c, [[0], [1]]⟩, ⟨.i32, .c, [[0, 2]]⟩]
      [.num (.arr 0), .num (.arr 1), .num (.arr 2), .num (.int 1), .num (.int 2), .num (.int 4), .num (.int 2)] =
        .ok ([⟨.f64, .c, [[1, 1, 1, 1]]⟩, ⟨.i32, .c, [[0], [1]]⟩, ⟨.i32, .c, [[0, 2]]⟩], 0) ∧
    (countMultiCall envQ elemInt [⟨.f32, .c, [[0, 0, 0, 0]]⟩, ⟨.i32, .c, [[0], [1]]⟩, ⟨.i32, .c, [[0, 2]]⟩]
      [.num (.arr 0), .num (.arr 1), .num (.arr 2), .num (.int 1), .num (.int 2), .num (.int 4), .num (.int 2)]).map (fun r => r.2) = .ok 0 ∧
    (countMultiCall envQ elemInt [⟨.f32, .c, [[0, 0, 0, 0]]⟩, ⟨.i32, .c, [[0], [1]]⟩, ⟨.other, .c, [[0, 2]]⟩]
      [.num (.arr 0), .num (.arr 1), .num (.arr 2), .num (.int 1), .num (.int 2), .num (.int 4), .num (.int 2)]).map
        (fun r => (r.2, r.1.take 1)) = .ok (3, [⟨.f32, .c, [[0, 0, 0, 0]]⟩]) := by
  decide +kernel

/-- C104 is violated for the names the function is registered with: `n_particles` is taken as the number of profiles.  Two particles in
one profile of four bins, called as the names say: the second coordinate is counted in a second profile, behind the end of the array. -/
theorem C104_violated_count_multi_names :
    countMultiCall envQ elemInt [⟨.f64, .c, [[0, 0, 0, 0]]⟩, ⟨.i32, .c, [[0], [1]]⟩, ⟨.i32, .c, [[0]]⟩]
      [.num (.arr 0), .num (.arr 1), .num (.arr 2), .num (.int 2), .num (.int 1), .num (.int 4), .num (.int 1)] = .error .oob := by
  decide +kernel

end Verif.Props
