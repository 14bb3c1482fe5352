import Verif.Props.Bench
import Verif.Props.NormGrowth

set_option linter.unusedSimpArgs false
set_option linter.unusedSectionVars false

/-! # Property C103: the set-ups with one digit per element, where the generators take two rows less -/

namespace Verif.Props
open Verif Verif.Spec Finset Verif.Example Plus

theorem benchCcs_single {R : Type} [CommRing R] [DecidableEq R] [Nontrivial R] (P : Params) (w : Nat) (hw : 2 ≤ w) (hL : P.L = 1) :
    ∃ ccs : CCS R, benchCcs 1 (w * P.L) w w P.L = .ok ccs ∧ GenOK P ccs w ∧
      ccs.checkRelation ([1] ++ List.replicate 1 1 ++ List.replicate w 1) = .ok () := by
  rw [hL, Nat.mul_one]
  have hchk := (C82_r1cs (R := R) 1 w w (by omega) []).2
  have wf : R1CSWF (dummyR1CS 1 w w : R1CS R) := by
    constructor <;> first | exact diag_wf _ _ (by omega) _ | rfl
  unfold benchCcs CCS.fromR1CSPadded
  have hn : (CCS.fromR1CS (dummyR1CS 1 w w : R1CS R) w).n = w + 2 := by
    show 1 + w + 1 = w + 2; omega
  have hl : (CCS.fromR1CS (dummyR1CS 1 w w : R1CS R) w).l = 1 := rfl
  have hm : (CCS.fromR1CS (dummyR1CS 1 w w : R1CS R) w).m = w := rfl
  simp only [hn, hl, hm, usub]
  rw [if_pos (by omega)]
  simp only [bind_ok']
  rw [if_pos (by omega)]
  simp only [bind_ok']
  rw [show w + 2 - 1 - 1 = w by omega, Nat.mul_one, max_self]
  have hsh := padRowsTo_shape (CCS.fromR1CS (dummyR1CS 1 w w : R1CS R) w) w rfl rfl (by omega)
    (by
      refine ⟨?_, rfl, rfl, ?_⟩
      · intro M hM
        simp only [CCS.fromR1CS, dummyR1CS, List.mem_cons, List.not_mem_nil, or_false] at hM
        rcases hM with rfl | rfl | rfl <;> exact diag_wfM (by omega) rfl _
      · simp [CCS.fromR1CS])
    (by
      intro M hM
      simp only [CCS.fromR1CS, dummyR1CS, List.mem_cons, List.not_mem_nil, or_false] at hM
      rcases hM with rfl | rfl | rfl <;> exact le_refl w)
    (by
      intro k hk _
      have hk : k < 2 := hk
      have h : ∀ k < 2, (([[0, 1], [2]] : List (List Nat)).getD k []).length ≤ 2 := by decide
      exact h k hk)
  obtain ⟨h1, h2, h3, h4, h5, h6, h7, h8, h9, h10⟩ := hsh
  refine ⟨_, rfl, ⟨h1, aligned_of_r1cs _ h5 h6 h7, h2.trans hn, h3, ?_, ?_, by rw [h8]; exact (by decide : 2 ≤ 3)⟩, ?_⟩
  · rw [hL, Nat.mul_one]; exact h4
  · rw [h9, h10]; rfl
  · rw [padRowsTo_check _ wf _ _ (le_refl w)]
    exact hchk

/-- One digit per element and `w + 1` a power of two: the system of degree three is satisfied, but has more rows than the tables of the sum-check. -/
theorem deg3Ccs_too_long {R : Type} [CommRing R] [DecidableEq R] (w k : Nat) (hk : 2 ≤ k) (hw : w + 1 = 2 ^ k) (z : List R) (hz : z.length = 1 + w + 1) :
    ∃ ccs : CCS R, dummyDegreeThree z 1 w w 1 (1 + w + 1) = .ok ccs ∧ ccs.checkRelation z = .ok () ∧
      ∀ z' : List R, z'.length = 1 + w + 1 → ∃ a b, calculateMzMles ccs z' = .error (.mleIncorrectLength a b) := by
  have h4 : 2 ^ 2 ≤ 2 ^ k := Nat.pow_le_pow_right (by omega) hk
  obtain ⟨ccs, hccs, -, hchk, -⟩ := C82_degree_three_partial z 1 w w 1 (by omega) (by omega)
  rw [hz] at hccs
  refine ⟨ccs, hccs, hchk hz, fun z' hz' => ?_⟩
  unfold dummyDegreeThree at hccs
  rw [dummyCubing_eq _ _ _ hz.symm] at hccs
  simp only [bind_ok', usub] at hccs
  rw [if_pos (by omega)] at hccs
  simp only [bind_ok'] at hccs
  rw [if_pos (by omega)] at hccs
  simp only [bind_ok'] at hccs
  rw [show 1 + w + 1 - 1 - 1 = w by omega, Nat.mul_one, max_self] at hccs
  have hccs := Except.ok.inj hccs
  have hpp : nextPow2 (nextPow2 w) = nextPow2 w := by
    show 2 ^ Nat.clog 2 (nextPow2 w) = _
    rw [clog_nextPow2]; rfl
  have hlt : 2 ^ Nat.clog 2 w < 1 + w + 1 := by
    have : 2 ^ Nat.clog 2 w ≤ 2 ^ k := Nat.pow_le_pow_right (by omega) (Nat.clog_le_of_le_pow (by omega))
    omega
  have hA : (dummyIdentity (1 + w + 1) (1 + w + 1) : SpMat R).WF := diag_wf _ _ (le_refl _) _
  have key : ∃ A rest, ccs.M = A :: rest ∧ A.WF ∧ A.ncols = 1 + w + 1 ∧ 1 + w + 1 ≤ A.nrows ∧ ccs.s = Nat.clog 2 w := by
    unfold CCS.padRowsTo at hccs
    simp only [hpp] at hccs
    split at hccs <;> subst hccs
    · exact ⟨_, _, rfl, padRows_wf hA _, padRows_ncols _ _, by rw [padRows_nrows]; exact le_max_left _ _, clog_nextPow2 w⟩
    · exact ⟨_, _, rfl, hA, rfl, le_refl _, rfl⟩
  obtain ⟨A, rest, hM, hwf, hc, hr, hs⟩ := key
  refine ⟨2 ^ Nat.clog 2 w, A.nrows, ?_⟩
  unfold calculateMzMles toMlesErr
  rw [hM, hs, List.map_cons, matVecMul_wf hwf (hz'.trans hc.symm)]
  unfold mapRes
  simp only [List.length_map, List.length_range]
  rw [if_pos (by omega)]

section Ring
variable {Fp F C σ G : Type} {N τ : Nat} [Field Fp] [Field F] [DecidableEq F] [Algebra Fp F] [CommRing C] [Algebra Fp C]

theorem genRows_single (P : Params) (k : Nat) (hL : P.L = 1) : genRows P (2 ^ k) (1 + 2 ^ k + 1) = .ok (2 ^ k) := by
  have h0 : 2 ^ k &&& (2 ^ k - 1) = 0 := by rw [Nat.and_two_pow_sub_one_eq_mod, Nat.mod_self]
  have hp := Nat.two_pow_pos k
  unfold genRows usub
  generalize 2 ^ k = w at h0 hp ⊢
  rw [if_pos ⟨hL, hp, h0⟩, if_pos (by omega), show 1 + w + 1 - 2 = w by omega]

/-- **C103**, one digit per element and a power of two of witness elements, the case for which the generators take two rows less: the set-up `Scalar`
succeeds, with a constraint system that has as many rows as the commitment has columns and a valid committed instance. Missing: the other two. -/
theorem C103_single_digit_partial (rd : RingData Fp F C N τ) (P : Params) (hP : ParamsOK Fp P) (e : Fin N → F) (rnd : G → (Fin N → F) × G) (rng : G)
    (k kappa : Nat) (hk : 1 ≤ kappa) (h1 : 1 ≤ k) (hL : P.L = 1) :
    ∃ i, setupR1CS rd P e rnd rng 1 (2 ^ k) (2 ^ k) kappa .scalar = .ok i ∧ SizesOK P i.ccs i.scheme ∧ Aligned i.ccs ∧
      i.ccs.m = 2 ^ k ∧ FreshHolds rd P i.ccs i.scheme i.cm i.wit := by
  have : Nonempty (Fin N) := ⟨⟨0, rd.npos⟩⟩
  have hw : 2 ≤ 2 ^ k := Nat.le_self_pow (by omega) 2
  obtain ⟨ccs, c1, c2, c3⟩ := benchCcs_single (R := Fin N → F) P (2 ^ k) hw hL
  obtain ⟨i, i1, rfl, -, -, -, i5, i6⟩ := genFinish_ok rd P hP rnd rng kappa (2 ^ k) hk (by omega) ccs c2 _ (by simp) c3
  rw [hL, Nat.mul_one] at c1 i1
  refine ⟨i, ?_, i5, c2.al, ?_, i6⟩
  · show witAndCcsGen rd P rnd rng 1 (2 ^ k) (2 ^ k) (1 + 2 ^ k + 1) kappa = _
    unfold witAndCcsGen
    simp only [genRows_single P k hL, bind_ok', hL, c1]
    exact i1
  · rw [c2.sh.pow, c2.s, hL, Nat.mul_one, Nat.clog_pow 2 k (by omega)]

/-- **C103** is false for the other two in this case: the matrix that depends on the witness is made for `r1cs_rows - 2` rows, and its constructor
demands as many rows as the vector `z` has elements. -/
theorem C103_single_digit_aborts (rd : RingData Fp F C N τ) (P : Params) (e : Fin N → F) (rnd : G → (Fin N → F) × G) (rng : G)
    (n k kappa : Nat) (hL : P.L = 1) (t : R1CSKind) (ht : t ≠ .scalar) :
    setupR1CS rd P e rnd rng 1 n (2 ^ k) kappa t = .error (.panic "Length of witness vector must be equal to ccs width") := by
  have hlen : 2 ^ k ≠ ([(1 : Fin N → F)] ++ List.replicate 1 1 ++ List.replicate (2 ^ k) e).length := by simp; omega
  match t, ht with
  | .nonScalar, _ =>
    show witAndCcsGenNonScalar rd P e rnd rng 1 n (2 ^ k) (1 + 2 ^ k + 1) kappa = _
    unfold witAndCcsGenNonScalar dummyZSplitNtt benchCcsNonScalar dummyR1CSNonScalar dummySquaring
    simp only [genRows_single P k hL, bind_ok']
    rw [if_pos hlen]
    rfl
  | .degreeThreeNonScalar, _ =>
    show witAndCcsGenDegreeThree rd P e rnd rng 1 n (2 ^ k) (1 + 2 ^ k + 1) kappa = _
    unfold witAndCcsGenDegreeThree dummyZSplitNtt dummyDegreeThree dummyCubing
    simp only [genRows_single P k hL, bind_ok']
    rw [if_pos hlen]
    rfl

/-- **C102**, **C114**: likewise the end-to-end example aborts for `PARAM_L=1` with a power of two of witness elements, such as the default four. -/
theorem C102_single_digit_aborts (rd : RingData Fp F C N τ) (P : Params) (cs : ChallengeSet C) (e : Fin N → F) (rnd : G → (Fin N → F) × G) (rng : G)
    (T : Transcript F (Fin N → F) σ) (s0 : σ) (n k kappa : Nat) (hL : P.L = 1) :
    exampleMain rd P cs e rnd rng T s0 1 n (2 ^ k) kappa = .error (.panic "Length of witness vector must be equal to ccs width") := by
  have h : witAndCcsGenDegreeThree rd P e rnd rng 1 n (2 ^ k) (1 + 2 ^ k + 1) kappa = _ :=
    C103_single_digit_aborts rd P e rnd rng n k kappa hL .degreeThreeNonScalar (by decide)
  unfold exampleMain setupExample
  simp only [h]
  rfl

/-- **C102**, **C114**: with `PARAM_L=1` and one witness element less than a power of two, such as three, the set-up makes a valid instance but
the example aborts in the linearization: the `w + 2` rows do not fit into the `w + 1` entries of the tables. -/
theorem C102_single_digit_too_long (rd : RingData Fp F C N τ) (P : Params) (hP : ParamsOK Fp P) (cs : ChallengeSet C) (e : Fin N → F)
    (rnd : G → (Fin N → F) × G) (rng : G) (T : Transcript F (Fin N → F) σ) (s0 : σ) (w k kappa : Nat) (hkap : 1 ≤ kappa) (hL : P.L = 1)
    (hk : 2 ≤ k) (hw : w + 1 = 2 ^ k) :
    exampleMain rd P cs e rnd rng T s0 1 w w kappa = .error (.panic "Failed to generate linearization proof") := by
  have h4 : 2 ^ 2 ≤ 2 ^ k := Nat.pow_le_pow_right (by omega) hk
  obtain ⟨ccs, c1, c2, c3⟩ := deg3Ccs_too_long w k hk hw ([(1 : Fin N → F)] ++ List.replicate 1 1 ++ List.replicate w e) (by simp; omega)
  have hrows : genRows P w (1 + w + 1) = .ok (1 + w + 1) := if_neg (by
    rintro ⟨-, -, h⟩
    have h' : (w - 1) &&& w = 0 := by rw [Nat.land_comm]; exact h
    rw [show w = 2 ^ k - 1 by omega, Nat.and_two_pow_sub_one_eq_mod, Nat.mod_eq_of_lt (by omega)] at h'
    omega)
  obtain ⟨wit, h1, h2, h3, -⟩ := fromWCcs_ok rd P hP (List.replicate w e)
  obtain ⟨wa, a1, -, a3, -⟩ := fromWCcs_ok rd P hP ((List.range w).map fun k : Nat => (k : Fin N → F))
  obtain ⟨-, s2, -⟩ := rand_scheme rnd kappa w hkap rng
  have hcm : wit.commit (Ajtai.rand rnd kappa w rng).1 = .ok _ :=
    commit_ok _ _ (by rw [h2.f, List.length_map, h2.flen, List.length_replicate, hL, Nat.mul_one, s2])
  unfold exampleMain setupExample witAndCcsGenDegreeThree dummyZSplitNtt genFinish
  simp only [hrows, bind_ok', hL, c1, c2, unwrapRes, h1, hcm, a1]
  unfold linProve
  obtain ⟨a, b, hab⟩ := c3 (CCCS.getZ ⟨⟨(Ajtai.rand rnd kappa w rng).1.matrix.vals.map fun row => dot row wit.f⟩, List.replicate 1 1⟩ wa.wCcs) (by
    unfold CCCS.getZ; rw [a3]; simp; omega)
  simp only [hab]
  rfl

end Ring

section Examples

/-- One digit in base 512 over the field with 257 elements. -/
def par257single : Params := ⟨512, 1, 2, 9⟩

theorem par257single_ok : ParamsOK (ZMod 257) par257single := paramsOK_of_fit (by unfold ParamsFit; decide +kernel)

/-- Four witness elements: one set-up succeeds with four rows, the others abort. -/
example : (∃ i, setupR1CS ring257 par257single ![5] (fun g : Nat => (![(g : ZMod 257)], g + 1)) 7 1 4 4 2 .scalar = .ok i ∧ i.ccs.m = 4 ∧
      FreshHolds ring257 par257single i.ccs i.scheme i.cm i.wit) ∧
    setupR1CS ring257 par257single ![5] (fun g : Nat => (![(g : ZMod 257)], g + 1)) 7 1 4 4 2 .degreeThreeNonScalar =
      .error (.panic "Length of witness vector must be equal to ccs width") := by
  refine ⟨?_, C103_single_digit_aborts ring257 par257single _ _ _ 4 2 2 rfl _ (by decide)⟩
  obtain ⟨i, h1, -, -, h2, h3⟩ := C103_single_digit_partial ring257 par257single par257single_ok ![5] (fun g : Nat => (![(g : ZMod 257)], g + 1)) 7 2 2
    (by decide) (by decide) rfl
  exact ⟨i, h1, h2, h3⟩

/-- Three witness elements, `w + 1 = 2^2`. -/
example (cs : ChallengeSet C257) (T : Transcript (ZMod 257) C257 Nat) :
    exampleMain ring257 par257single cs ![5] (fun g : Nat => (![(g : ZMod 257)], g + 1)) 7 T 0 1 3 3 2 =
      .error (.panic "Failed to generate linearization proof") :=
  C102_single_digit_too_long ring257 par257single par257single_ok cs _ _ _ T 0 3 2 2 (by decide) rfl (by decide) rfl

end Examples

end Verif.Props
