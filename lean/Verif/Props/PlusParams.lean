import Verif.Props.PlusFold

/-!
# Property theorems: the parameters of the verifier of `latticefold-plus` (C110)
-/

set_option linter.unusedSectionVars false
set_option linter.unusedSimpArgs false

namespace Verif.Props

open Finset Verif Verif.Spec Verif.Plus

variable {F R σ : Type} {d : Nat}
variable [Field F] [CommRing R] [Algebra F R] [DecidableEq F] [DecidableEq R]

/-- **C110**: of its parameters the verifier only uses `B`. -/
theorem C110_params_free {P : Type} (pr : PlusRing F R d) (T : Transcript F R σ) (lverify : σ → P → Res (Bool × σ)) (M : List (SpMat R))
    (params : PlusParams) (lin : LinParams) (proofs : List (PlusProof F R P)) (s : σ) :
    plusVerifyAll pr T lverify M { params with lin := lin } proofs s = plusVerifyAll pr T lverify M params proofs s := by
  induction proofs generalizing s with
  | nil => rfl
  | cons p ps ih =>
    unfold plusVerifyAll
    have h : plusVerify pr T lverify M { params with lin := lin } s p = plusVerify pr T lverify M params s p := rfl
    rw [h]
    cases plusVerify pr T lverify M params s p with
    | error e => rfl
    | ok v =>
      simp only [bind_ok']
      rw [ih]

/-- **C110** (partial): the base `B` of the decomposition is the one of the verifier: the two halves in an accepted proof combine with it to the statement. -/
theorem C110_base_partial {P : Type} (pr : PlusRing F R d) (T : Transcript F R σ) (lverify : σ → P → Res (Bool × σ)) (s : σ) (M : List (SpMat R))
    (params : PlusParams) (proof : PlusProof F R P) (b : Bool) (s' : σ) (h : plusVerify pr T lverify M params s proof = .ok (b, s')) :
    addMul (params.B : R) proof.dproof.C.1 proof.dproof.C.2 = proof.linb2x.cmG ∧
      addMulPair (params.B : R) proof.dproof.v.1 proof.dproof.v.2 = proof.linb2x.vo := by
  obtain ⟨-, s1, x, -, -, h1, h2⟩ := (C66_verify_iff_partial pr T lverify s M params proof b s').1 h
  exact ⟨h1, h2⟩

/-- **C110** is false: an honest prover with its own number of digits `k` (and `l`, `kappa`), and witnesses in the range `b^k` of these, is accepted by verifiers with any others. -/
theorem C110_prover_chooses_range (pr : PlusRing F R d) (T : Transcript F R σ) (s : σ) {A : Mat R} {n : Nat} {params : PlusParams} {M : List (SpMat R)}
    (hp : MlinParams pr T A n params.lin M) (hB : 2 ≤ params.B) (hBe : Even params.B)
    (hBb : params.B ≤ params.lin.decomp.b ^ params.lin.decomp.k) (comps : List (List (ComR1CS R)))
    (hcomp : ∀ comp ∈ comps, ∀ c ∈ comp, CompOK pr A n params.lin c)
    (hcount : ∀ comp ∈ comps, 2 ≤ params.lin.decomp.k * comp.length) (hnorm : NormRun pr T A M params comps [] s) (lin : LinParams) :
    ∃ proofs acc' s', plusProveAll pr T (fun s c => ComR1CS.linearize T s c) A M params comps [] s = .ok (proofs, acc', s') ∧
      plusVerifyAll pr T (fun s p => ComR1CSProof.verify T s p) M { params with lin := lin } proofs s = .ok (List.replicate comps.length true, s') := by
  obtain ⟨proofs, acc', s', h1, -, h2, -⟩ := C64_complete_partial pr T s hp hB hBe hBb [] comps (by simp) hcomp hcount hnorm
  exact ⟨proofs, acc', s', h1, (C110_params_free pr T _ M params lin proofs s).trans h2⟩

/-- The witness `(1, 0, 2, 0, ..)` of length `n + 3`. -/
def wideN (n : Nat) : List Example.R17 := 1 :: 0 :: 2 :: List.replicate n 0

/-- The witness `(1, 0, 2, 0, ..)` of length 256. -/
def wide256 : List Example.R17 := wideN 253

/-- The R1CS `x_0^2 = x_0`, `x_1^2 = x_1` with a witness in the range of two digits to base two, not in the range of one. -/
def comWide : ComR1CS Example.R17 := ⟨⟨0, id256, id256, id256⟩, [], commit A256 wide256, 0, wide256⟩

theorem wideN_length (n : Nat) : (wideN n).length = n + 3 := by simp [wideN]

theorem wide256_length : wide256.length = 256 := wideN_length 253

theorem wideN_mem {n : Nat} {y : Example.R17} (h : y ∈ wideN n) : y = 1 ∨ y = 0 ∨ y = 2 := by
  simp only [wideN, List.mem_cons, List.mem_replicate] at h
  rcases h with h | h | h | ⟨_, h⟩
  · exact .inl h
  · exact .inr (.inl h)
  · exact .inr (.inr h)
  · exact .inr (.inl h)

theorem two_mem_wide (n : Nat) : (2 : Example.R17) ∈ wideN n := by simp [wideN]

theorem comWide_length : comWide.f.length = 256 := by
  unfold comWide
  exact wide256_length

theorem comWide_ok : CompOK Example.plus17 A256 256 params256.lin comWide where
  shape := ⟨⟨id256_wf, id256_wf, id256_wf, rfl, rfl, rfl, rfl⟩, comWide_length.symm,
    by rw [comWide_length]; change 2 ≤ 2 ^ Nat.clog 2 256; decide, by rw [comWide_length]; decide⟩
  rel := by
    intro i hi
    change i < 2 at hi
    unfold R1CSRow comWide
    simp only
    rw [id256_mul _ hi]
    obtain rfl | rfl : i = 0 ∨ i = 1 := by omega
    · change (1 : Example.R17) * 1 = 1
      rw [one_mul]
    · change (0 : Example.R17) * 0 = 0
      rw [zero_mul]
  cm := by simp only [comWide]
  wit := by
    refine ⟨wide256_length, ?_⟩
    intro y hy i
    rw [Example.shortZ]
    rcases wideN_mem hy with rfl | rfl | rfl <;> revert i <;> decide

/-- **C110**, the witness: a verifier that asks for one digit accepts the proof for a witness which needs two. -/
theorem C110_witness (T : Transcript (ZMod 17) Example.R17 σ) (hT : BytesOK T) (s : σ) : ∃ proofs acc' s',
    plusProveAll Example.plus17 T (fun s c => ComR1CS.linearize T s c) A256 [id256, id256, id256] params256 [[comWide]] [] s = .ok (proofs, acc', s') ∧
    plusVerifyAll Example.plus17 T (fun s p => ComR1CSProof.verify T s p) [id256, id256, id256] ⟨⟨1, ⟨2, 1, 4⟩⟩, 4⟩ proofs s = .ok ([true], s') ∧
    ¬ ∀ x ∈ comWide.f, ∀ i, Short (2 ^ 1) (Example.plus17.coeff x i) := by
  obtain ⟨proofs, acc', s', h1, h2⟩ := C110_prover_chooses_range Example.plus17 T s (mlin256 T hT) (by decide) (by decide) (by decide)
    [[comWide]] (by
      intro comp hcomp c hc
      obtain rfl := List.mem_singleton.1 hcomp
      obtain rfl := List.mem_singleton.1 hc
      exact comWide_ok) (by
      intro comp hcomp
      obtain rfl := List.mem_singleton.1 hcomp
      decide) (norm256 T s _ _) ⟨1, ⟨2, 1, 4⟩⟩
  refine ⟨proofs, acc', s', h1, h2, ?_⟩
  intro h
  have := h 2 (two_mem_wide 253) 0
  rw [Example.shortZ] at this
  revert this
  decide

/-- The same proofs, for a verifier with parameters without any digit. -/
example (T : Transcript (ZMod 17) Example.R17 σ) (hT : BytesOK T) (s : σ) : ∃ proofs s',
    plusVerifyAll Example.plus17 T (fun s p => ComR1CSProof.verify T s p) [id256, id256, id256] ⟨⟨0, ⟨0, 0, 0⟩⟩, 4⟩ proofs s = .ok ([true], s') := by
  obtain ⟨proofs, acc', s', h1, h2, -⟩ := C110_witness T hT s
  exact ⟨proofs, s', (C110_params_free Example.plus17 T _ _ ⟨⟨1, ⟨2, 1, 4⟩⟩, 4⟩ ⟨0, ⟨0, 0, 0⟩⟩ proofs s).trans h2⟩

/-- With other halves the proof is rejected, whatever the rest. -/
example (T : Transcript (ZMod 17) Example.R17 σ) (s : σ) (cp : CmProof (ZMod 17) Example.R17) (b : Bool) (s' : σ) :
    plusVerify Example.plus17 T (fun s (p : ComR1CSProof Example.R17) => p.verify T s) [] ⟨⟨0, ⟨0, 0, 0⟩⟩, 4⟩ s
      ⟨⟨[9], [], []⟩, [], cp, ⟨([1], [1]), ([], [])⟩⟩ ≠ .ok (b, s') := by
  intro h
  have h1 : addMul ((4 : Nat) : Example.R17) [1] [1] = [9] := (C110_base_partial _ _ _ _ _ _ _ _ _ h).1
  revert h1
  decide

end Verif.Props
