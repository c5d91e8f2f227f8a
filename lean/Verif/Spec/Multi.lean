import Verif.Spec.Recon

/-!
# Specification of the multi-bunch operators

All bunches use the same cloud `x`; bunch `c` is the cloud moved by `ctr c` bins.  `cl c`, `cr c` are the cuts of bunch `c`.
-/

namespace Verif.Spec
open Finset

variable {K : Type _} [Field K]

/-- the cloud moved by `z` bins -/
def moved (x : ℕ → ℕ → ℕ) (z : ℤ) (i p : ℕ) : ℕ := ((x i p : ℤ) + z).toNat

/-- every particle of every bunch is inside the image in every profile -/
def InImage (nc npart nprof nbins : ℕ) (x : ℕ → ℕ → ℕ) (ctr : ℕ → ℤ) : Prop :=
  ∀ c, c < nc → ∀ i, i < npart → ∀ p, p < nprof → 0 ≤ (x i p : ℤ) + ctr c ∧ (x i p : ℤ) + ctr c < nbins

/-- particle `i` of bunch `c` stays inside the cuts of its bunch -/
def Inside (nprof : ℕ) (x : ℕ → ℕ → ℕ) (ctr cl cr : ℕ → ℤ) (c i : ℕ) : Prop :=
  ∀ p, p < nprof → cl c ≤ (x i p : ℤ) + ctr c ∧ (x i p : ℤ) + ctr c ≤ cr c

instance (nprof : ℕ) (x : ℕ → ℕ → ℕ) (ctr cl cr : ℕ → ℤ) (c i : ℕ) : Decidable (Inside nprof x ctr cl cr c i) :=
  Nat.decidableBallLT _ _

/-- projection of all bunches together; `w c i` is the weight of particle `i` of bunch `c` -/
def projAll (nc npart : ℕ) (x : ℕ → ℕ → ℕ) (ctr : ℕ → ℤ) (w : ℕ → ℕ → K) (p b : ℕ) : K :=
  ∑ c ∈ range nc, proj npart (moved x (ctr c)) (w c) p b

/-- what particle `i` of bunch `c` collects: nothing when it leaves the cuts -/
def backAll (nprof : ℕ) (x : ℕ → ℕ → ℕ) (ctr cl cr : ℕ → ℤ) (f : ℕ → ℕ → K) (c i : ℕ) : K :=
  if Inside nprof x ctr cl cr c i then backProj nprof (moved x (ctr c)) f i else 0

/-- number of particles of all bunches in a bin -/
def countAll (nc npart : ℕ) (x : ℕ → ℕ → ℕ) (ctr : ℕ → ℤ) (p b : ℕ) : ℕ :=
  ∑ c ∈ range nc, count npart (moved x (ctr c)) p b

/-- largest number of particles in any bin -/
def maxAll (nc npart nprof nbins : ℕ) (x : ℕ → ℕ → ℕ) (ctr : ℕ → ℤ) : ℕ :=
  (range nprof).sup fun p => (range nbins).sup fun b => countAll nc npart x ctr p b

/-- compensation factor -/
def recipAll (K : Type _) [Field K] (nc npart nprof nbins : ℕ) (x : ℕ → ℕ → ℕ) (ctr : ℕ → ℤ) (p b : ℕ) : K :=
  (maxAll nc npart nprof nbins x ctr : K) / ((max 1 (countAll nc npart x ctr p b) : ℕ) : K)

/-- mean square of the columns `l ≤ b < r` of a matrix: what "discrepancy of a bunch" should mean -/
def meanSquareCut (nprof : ℕ) (l r : ℕ) (d : ℕ → ℕ → K) : K :=
  (∑ p ∈ range nprof, ∑ b ∈ Ico l r, d p b ^ 2) / ((nprof * (r - l) : ℕ) : K)
/-- the problem: sizes, cloud, centres, cuts -/
structure Setup where
  nc : ℕ
  npart : ℕ
  nprof : ℕ
  nbins : ℕ
  x : ℕ → ℕ → ℕ
  ctr : ℕ → ℤ
  cl : ℕ → ℤ
  cr : ℕ → ℤ

/-- sizes are positive, all bunches are inside the image, cuts are not empty -/
structure Setup.Ok (S : Setup) : Prop where
  nc : 0 < S.nc
  nprof : 0 < S.nprof
  nbins : 0 < S.nbins
  image : InImage S.nc S.npart S.nprof S.nbins S.x S.ctr
  cuts : ∀ c, c < S.nc → S.cl c < S.cr c

/-- particle `i` of bunch `c` stays strictly between the cuts of its bunch -/
def Clear (S : Setup) (c i : ℕ) : Prop := ∀ p, p < S.nprof → S.cl c < (S.x i p : ℤ) + S.ctr c ∧ (S.x i p : ℤ) + S.ctr c < S.cr c

instance (S : Setup) (c i : ℕ) : Decidable (Clear S c i) := Nat.decidableBallLT _ _

/-- the cuts are columns of the image -/
def CutsIn (S : Setup) : Prop := ∀ c, c < S.nc → 0 ≤ S.cl c ∧ S.cr c ≤ S.nbins

/-- no particle of any bunch is on a cut of its bunch -/
def OffCuts (S : Setup) : Prop :=
  ∀ c, c < S.nc → ∀ i, i < S.npart → ∀ p, p < S.nprof → (S.x i p : ℤ) + S.ctr c ≠ S.cl c ∧ (S.x i p : ℤ) + S.ctr c ≠ S.cr c

/-- one bunch, the whole image -/
def whole (npart nprof nbins : ℕ) (x : ℕ → ℕ → ℕ) : Setup := ⟨1, npart, nprof, nbins, x, fun _ => 0, fun _ => -1, fun _ => nbins⟩

end Verif.Spec
