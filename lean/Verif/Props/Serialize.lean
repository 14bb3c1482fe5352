import Verif.Lemmas.Serialize
import Verif.Props.RandomOracleHonest
import Verif.Props.VerifierTotal
import Verif.Props.ExampleRing257
import Verif.Lemmas.FourRings

/-!
# C98, C99: proofs as bytes
-/

set_option linter.unusedSectionVars false
set_option linter.unusedSimpArgs false

namespace Verif.Props

open Finset Spec Verif Verif.Poseidon

section
variable {p N τ : Nat} {F R : Type} [AddCommGroup F] [AddCommGroup R]

/-- **C98**, round trip: a serialized proof is read back as it was, whatever follows it in the stream. -/
theorem C98_round_trip [NeZero p] (w : Nat) (hw : p ≤ 256 ^ w) (e : Encoding (ZMod p) F R N τ) (proof : LFProof R) (h : Proof64 proof)
    (rest : List UInt8) :
    (Ser.lfProof (Ser.ring w e)).read ((Ser.lfProof (Ser.ring w e)).write proof ++ rest) = .ok (proof, rest) :=
  (Ser.good_lf (Ser.good_ring w hw e)).round proof rest h

/-- **C98**, uniqueness: the only bytes which are read as `proof` are the serialization of `proof`. So bytes in transit cannot be changed
without changing the proof. -/
theorem C98_unique [NeZero p] (w : Nat) (hw : p ≤ 256 ^ w) (e : Encoding (ZMod p) F R N τ) (bs rest : List UInt8) (proof : LFProof R)
    (h : (Ser.lfProof (Ser.ring w e)).read bs = .ok (proof, rest)) :
    bs = (Ser.lfProof (Ser.ring w e)).write proof ++ rest ∧ Proof64 proof :=
  (Ser.good_lf (Ser.good_ring w hw e)).strict bs proof rest h

/-- **C98**, truncation: a serialized proof with bytes missing at the end is not read as any proof. -/
theorem C98_truncated [NeZero p] (w : Nat) (hw : p ≤ 256 ^ w) (e : Encoding (ZMod p) F R N τ) (proof : LFProof R) (h : Proof64 proof)
    (bs missing : List UInt8) (hm : missing ≠ []) (hbs : (Ser.lfProof (Ser.ring w e)).write proof = bs ++ missing) :
    ∃ err, (Ser.lfProof (Ser.ring w e)).read bs = .error err := by
  cases hr : (Ser.lfProof (Ser.ring w e)).read bs with
  | error err => exact ⟨err, rfl⟩
  | ok x =>
    obtain ⟨proof', rest⟩ := x
    obtain ⟨h1, h2⟩ := C98_unique w hw e bs rest proof' hr
    have e1 := C98_round_trip w hw e proof h []
    rw [List.append_nil, hbs, h1, List.append_assoc, C98_round_trip w hw e proof' h2] at e1
    simp only [Except.ok.injEq, Prod.mk.injEq, List.append_eq_nil_iff] at e1
    exact absurd e1.2.2 hm

/-- **C98**: different proofs have different bytes. -/
theorem C98_injective [NeZero p] (w : Nat) (hw : p ≤ 256 ^ w) (e : Encoding (ZMod p) F R N τ) (p1 p2 : LFProof R) (h1 : Proof64 p1)
    (h2 : Proof64 p2) (h : (Ser.lfProof (Ser.ring w e)).write p1 = (Ser.lfProof (Ser.ring w e)).write p2) : p1 = p2 := by
  have e1 := C98_round_trip w hw e p1 h1 []
  rw [h, C98_round_trip w hw e p2 h2] at e1
  simp only [Except.ok.injEq, Prod.mk.injEq] at e1
  exact e1.1.symm

/-- **C98**, size: eight bytes for every vector and `N τ w` bytes for every ring element. -/
theorem C98_size (w : Nat) (e : Encoding (ZMod p) F R N τ) (proof : LFProof R) :
    ((Ser.lfProof (Ser.ring w e)).write proof).length = 8 * vecCount proof + elemCount proof * (N * (τ * w)) :=
  Ser.lf_size (Ser.ring_size w e) proof

/-- **C99** (negation): the second size printed by the end-to-end example is never the size of the proof but twice that. -/
theorem C99_uncompressed_doubled (w : Nat) (e : Encoding (ZMod p) F R N τ) (proof : LFProof R) :
    (Ser.exampleSizes (Ser.ring w e) proof).2 = 2 * ((Ser.lfProof (Ser.ring w e)).write proof).length ∧
      (Ser.exampleSizes (Ser.ring w e) proof).2 ≠ ((Ser.lfProof (Ser.ring w e)).write proof).length := by
  have h : 0 < ((Ser.lfProof (Ser.ring w e)).write proof).length := by
    rw [C98_size]
    unfold vecCount
    omega
  simp only [Ser.exampleSizes, List.nil_append, List.length_append]
  omega

/-- **C99** (partial): the first size printed is the size of the proof. Missing: the second one. -/
theorem C99_compressed_partial (w : Nat) (e : Encoding (ZMod p) F R N τ) (proof : LFProof R) :
    (Ser.exampleSizes (Ser.ring w e) proof).1 = 8 * vecCount proof + elemCount proof * (N * (τ * w)) := by
  simp only [Ser.exampleSizes, List.nil_append]
  exact C98_size w e proof

end

/-! ## The size of an honest proof -/

theorem sum_lengths {α : Type} (l : List (List α)) (k n : Nat) (h1 : l.length = n) (h2 : ∀ x ∈ l, x.length = k) :
    (l.map List.length).sum = n * k := by
  rw [List.map_congr_left h2, List.map_const', List.sum_replicate, h1, smul_eq_mul]

section
variable {p N τ : Nat} {F C σ : Type} [Fact p.Prime] [Field F] [DecidableEq F] [Algebra (ZMod p) F] [CommRing C] [Algebra (ZMod p) C]

/-- **C98**, succinctness: the size of an honest proof is given by the number of variables `s` (the logarithm of the number of
constraints), the degree, the numbers of matrices, public inputs and rows of the commitment matrix, and the parameters of the
decomposition. It does not depend on the witnesses, the statements or the challenges. -/
theorem C98_honest_size (rd : RingData (ZMod p) F C N τ) (P : Params) (cs : ChallengeSet C)
    (T : Transcript F (Fin N → F) σ) (s : σ) (ccs : CCS (Fin N → F)) (scheme : Ajtai (Fin N → F))
    (acc : LCCCS (Fin N → F)) (wAcc : Witness (Fin N → F) C) (cm : CCCS (Fin N → F)) (w : Witness (Fin N → F) C)
    (hP : ParamsOK (ZMod p) P) (hS : SizesOK P ccs scheme) (ht : ccs.t = ccs.M.length) (al : Aligned ccs)
    (hc : CharGt F (2 * P.bSmall)) (hd : CharGt F (ccs.d + 1)) (hT : ∀ s n, (T.bytes s n).1.length = n)
    (hcs : ∀ bs, bs.length = cs.bytesNeeded → ∃ c, cs.decode bs = .ok c)
    (hacc : LcccsHolds rd P ccs scheme acc wAcc) (hsh : WitShort rd (reach P.bSmall P.K) wAcc)
    (hfresh : FreshHolds rd P ccs scheme cm w) (bytes : Nat) (e : Encoding (ZMod p) F (Fin N → F) N τ) :
    ∃ st w' proof s', nifsProve rd P cs T s acc wAcc cm w ccs scheme = .ok ((st, w', proof), s') ∧
      ((Ser.lfProof (Ser.ring bytes e)).write proof).length
        = 8 * (14 + 2 * ccs.s + 12 * P.K)
          + (ccs.s * (ccs.d + 2) + ccs.s * (2 * P.bSmall + 1) + (τ + ccs.M.length)
            + 2 * P.K * (2 * ccs.M.length + 2 * τ + (ccs.l + 1) + scheme.matrix.vals.length)) * (N * (τ * bytes)) := by
  have hsan := sanity_ok hS
  have hnl := hS.nl
  have hKp := hP.Kpos
  obtain ⟨lin, linp, s1, hl1, hl2, hlcm, hlx, hlh, -, hle⟩ := C27_linearization_complete T
    (absorbPublicInput T s acc cm) cm w ccs hS.sh al hd
    (by rw [hfresh.xlen, hfresh.witOK.wlen]; omega) hfresh.sat
    (fun m hm => by rw [hfresh.witOK.hatvars m hm, hS.hat])
  have hlin : LcccsHolds rd P ccs scheme lin w :=
    ⟨hfresh.witOK, by rw [hlcm]; exact hfresh.opens, by rw [hlx]; exact hfresh.xlen, hle⟩
  obtain ⟨mz1, l1, w1, p1, s2, ha1, ha2, ha3, ha4, ha5, ha7, ha6⟩ :=
    C30_decomposition_complete rd P T s1 acc wAcc ccs scheme hP hS hacc hsh
  obtain ⟨mz2, l2, w2, p2, s3, hb1, hb2, hb3, hb4, hb5, hb7, hb6⟩ :=
    C30_decomposition_complete rd P T s2 lin w ccs scheme hP hS hlin hfresh.short
  have hin := foldInput_append rd P ccs scheme ha3 ha4 ha5 hb3 hb4 hb5 ha6 hb6
  obtain ⟨st, w', proof, s4, rho, q, h1, h2, h3, -, -⟩ := fold_complete rd P cs T s3 ccs scheme _ _ _ hP hS ht
    hin hc hT hcs
  have dL : DecShape P ccs scheme τ p1 := dec_honest_shape rd P ccs scheme hS acc p1 l1 w1 ha2 ha7 fun k hk => by
    obtain ⟨st, wk, g1, g2, g3, -⟩ := ha6 k hk
    exact ⟨st, wk, g1, g2, g3⟩
  have dR : DecShape P ccs scheme τ p2 := dec_honest_shape rd P ccs scheme hS lin p2 l2 w2 hb2 hb7 fun k hk => by
    obtain ⟨st, wk, g1, g2, g3, -⟩ := hb6 k hk
    exact ⟨st, wk, g1, g2, g3⟩
  refine ⟨st, w', ⟨linp, p1, p2, proof⟩, s4, ?_, ?_⟩
  · unfold nifsProve
    simp only [hsan, bind_ok', hl1, ha1, hb1, h1]
  -- lengths of the linearization proof
  obtain ⟨ov, -, ou, -, -⟩ := linVerify_out _ _ _ _ _ _ _ hl2
  have lv : linp.v.length = τ := by rw [← ov, hle.v, List.length_map, hfresh.witOK.hatlen]
  have lu : linp.u.length = ccs.M.length := by rw [← ou, hle.u, List.length_map]
  have lsl : linp.sumcheck.length = ccs.s := by
    have h := hl1
    unfold linProve at h
    simp only [bind_eq_ok, Prod.exists] at h
    obtain ⟨mz, -, gm, deg, -, pr, pst, t, hp, v, -, u, -, h⟩ := h
    simp only [Except.ok.injEq, Prod.mk.injEq] at h
    rw [← h.1.2]
    exact (prove_sync _ _ _ _ _ _ _ _ _ hp).2.1
  have lsm : ∀ m ∈ linp.sumcheck, m.length = ccs.d + 2 := by
    have h := (lin_fits _ _ _ _ _ _ _ hl2).1.2
    rw [← lsl, List.take_length] at h
    exact h
  -- lengths of the folding proof
  obtain ⟨-, f1, f2, f3, -⟩ := fold_fits rd P cs _ _ _ _ _ _ _ hKp hT hcs h2
  have fsl : proof.sumcheck.length = ccs.s := by
    have h := h1
    unfold foldProve at h
    rw [bind_eq_ok] at h
    obtain ⟨-, -, h⟩ := h
    split at h
    · cases h
    simp only [bind_eq_ok, Prod.exists] at h
    obtain ⟨ch, t1, -, m1, -, z1, -, c1, -, m2, -, z2, -, c2, -, g, deg, -, pr, pst, t2, hp, theta, -, eta, -, rhoC, rho, t3, -, f0, -,
      o1, o2, o3, o4, -, lc, -, w0, -, h⟩ := h
    simp only [Except.ok.injEq, Prod.mk.injEq] at h
    rw [← h.1.2.2]
    exact (prove_sync _ _ _ _ _ _ _ _ _ hp).2.1
  have fsm : ∀ m ∈ proof.sumcheck, m.length = 2 * P.bSmall + 1 := by
    have h := f1.2
    rw [← fsl, List.take_length] at h
    exact h
  obtain ⟨-, eet⟩ := foldProve_evals rd P cs _ _ _ _ _ ccs _ st w' proof h1
    (by
      intro x hx m hm
      obtain ⟨k, hk, rfl⟩ := List.mem_iff_getElem.1 hx
      obtain ⟨stk, witk, -, g2, g3, -⟩ := hin.holds k (by rw [← hin.wLen]; exact hk)
      rw [List.getElem?_eq_getElem hk] at g2
      cases g2
      rw [g3.witOK.hatvars m hm, hS.hat]
      exact h3.evals.rlen)
    (by
      intro x hx m hm
      obtain ⟨k, hk, rfl⟩ := List.mem_iff_getElem.1 hx
      obtain ⟨stk, witk, -, -, -, -, g2⟩ := hin.holds k (by rw [← hin.mzLen]; exact hk)
      rw [List.getElem?_eq_getElem hk] at g2
      rw [Option.some.inj g2] at hm
      obtain ⟨M, -, rfl⟩ := List.mem_map.1 hm
      exact h3.evals.rlen)
  have fe : proof.etaS.length = 2 * P.K := by rw [eet, List.length_map, hin.mzLen]
  have fem : ∀ m ∈ proof.etaS, m.length = ccs.M.length := by
    intro m hm
    rw [eet] at hm
    obtain ⟨x, hx, rfl⟩ := List.mem_map.1 hm
    obtain ⟨k, hk, rfl⟩ := List.mem_iff_getElem.1 hx
    obtain ⟨stk, witk, -, -, -, -, g2⟩ := hin.holds k (by rw [← hin.mzLen]; exact hk)
    rw [List.getElem?_eq_getElem hk] at g2
    rw [Option.some.inj g2]
    simp
  have yl : ∀ (d : DecProof (Fin N → F)), DecShape P ccs scheme τ d →
      ((d.yS.map (·.val)).map List.length).sum = P.K * scheme.matrix.vals.length := fun d hd =>
    sum_lengths _ _ _ (by rw [List.length_map, hd.ys]) fun x hx => by
      obtain ⟨y, hy, rfl⟩ := List.mem_map.1 hx
      exact hd.y y hy
  rw [C98_size]
  unfold vecCount elemCount tables
  simp only [List.map_cons, List.map_nil, List.sum_cons, List.sum_nil, List.flatten_cons, List.flatten_nil, List.map_append,
    List.sum_append, yl _ dL, yl _ dR, sum_lengths _ _ _ lsl lsm, sum_lengths _ _ _ fsl fsm, sum_lengths _ _ _ dL.us dL.u,
    sum_lengths _ _ _ dL.vs dL.v, sum_lengths _ _ _ dL.xs dL.x, sum_lengths _ _ _ dR.us dR.u, sum_lengths _ _ _ dR.vs dR.v,
    sum_lengths _ _ _ dR.xs dR.x, sum_lengths _ _ _ f2 f3, sum_lengths _ _ _ fe fem, lsl, fsl, lv, lu, dL.us, dL.vs, dL.xs, dL.ys,
    dR.us, dR.vs, dR.xs, dR.ys, f2, fe, List.length_map]
  ring

end

/-- **C98**: the byte widths of the four prime fields are the smallest possible. -/
theorem C98_widths : (256 ^ 3 < pBabyBear ∧ pBabyBear ≤ 256 ^ 4) ∧ (256 ^ 7 < pGoldilocks ∧ pGoldilocks ≤ 256 ^ 8) ∧
    (256 ^ 7 < pFrog ∧ pFrog ≤ 256 ^ 8) ∧ (256 ^ 31 < pStark ∧ pStark ≤ 256 ^ 32) := by decide

/-! ## Concrete cases -/

section Examples
open Verif.Example

/-- Two coefficients, each an element of a quadratic extension of the field of 257 elements. -/
def enc257q : Encoding (ZMod 257) (Fin 2 → ZMod 257) (Fin 2 → Fin 2 → ZMod 257) 2 2 := ⟨AddEquiv.refl _, AddEquiv.refl _⟩

/-- The bytes of a vector with one ring element. -/
example : (Ser.vec (Ser.ring 2 enc257q)).write [![![1, 2], ![256, -2]]] = [1, 0, 0, 0, 0, 0, 0, 0, 1, 0, 2, 0, 0, 1, 255, 0] := by
  decide

/-- The integer 257 is not the canonical representative of a field element. -/
example : (Ser.prime 257 2).read [1, 1, 9] = .error .invalidData := by decide

/-- A small proof with different numbers of messages and pieces. -/
def small257 : LFProof C257 :=
  ⟨⟨[[![1], ![2]], []], [![3]], []⟩, ⟨[[![4]]], [], [[], [![5], ![6]]], [⟨[![7]]⟩]⟩, ⟨[], [], [], []⟩, ⟨[], [[![8]]], []⟩⟩

def enc257 : Encoding (ZMod 257) (ZMod 257) C257 1 1 := ⟨AddEquiv.refl _, ⟨⟨fun x _ => x, fun f => f 0, fun _ => rfl, fun f => by
  funext i; rw [Subsingleton.elim i 0]⟩, fun _ _ => rfl⟩⟩

theorem small257_64 : Proof64 small257 := by
  constructor <;> simp [small257, Lens64, Len64]

/-- It has 21 vectors and eight elements. -/
example : ((Ser.lfProof (Ser.ring 2 enc257)).write small257).length = 184 := by
  rw [C98_size]
  decide

example (rest : List UInt8) :
    (Ser.lfProof (Ser.ring 2 enc257)).read ((Ser.lfProof (Ser.ring 2 enc257)).write small257 ++ rest) = .ok (small257, rest) :=
  C98_round_trip 2 (by decide) enc257 small257 small257_64 rest

example : (Ser.lfProof (Ser.ring 2 enc257)).read [] = .error .ioError := rfl

/-- The honest proof for `fresh257`, with every transcript. -/
example {σ : Type} (T : Transcript (ZMod 257) C257 σ) (hT : ∀ s n, (T.bytes s n).1.length = n) (s : σ) :
    ∃ st w' proof s', nifsProve ring257 par257 cs257 T s
        (acc257 ![7] ![4] ![9] (wit257 ![100] ![33])) (wit257 ![100] ![33]) fresh257 (wit257 ![3] ![2]) ccs257 scheme257
        = .ok ((st, w', proof), s') ∧
      ((Ser.lfProof (Ser.ring 2 enc257)).write proof).length = 498 := by
  obtain ⟨st, w', proof, s', h1, h2⟩ := C98_honest_size ring257 par257 cs257 T s ccs257 scheme257
    (acc257 ![7] ![4] ![9] (wit257 ![100] ![33])) _ fresh257 _
    par257_ok sizes257 rfl aligned257 (charGt257 _ (by decide)) (charGt257 _ (by decide)) hT cs257_ok
    (acc257_holds _ _ _ _ _) (fun _ _ _ => reach257 _) fresh257_holds 2 enc257
  exact ⟨st, w', proof, s', h1, h2.trans (by decide)⟩

end Examples

end Verif.Props
