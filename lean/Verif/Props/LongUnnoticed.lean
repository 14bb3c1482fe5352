import Verif.Props.LongRandom
import Verif.Props.NormGrowth
import Verif.Lemmas.NormLast

/-!
# A folding step with a witness out of range whose result is in range (C54)

The last of the factors by which the pieces are combined is `1` (`nifs/folding/utils.rs:111-131`). The folded witness
contains the last piece of the new witness therefore without a factor, and stays within the range of the next decomposition
if this piece is not too long. Nothing is left then by which a later step or a final check of the accumulator could notice.
-/

set_option linter.unusedSectionVars false
set_option linter.unusedSimpArgs false

namespace Verif.Props

open Finset Verif Verif.Spec Verif.NormGrowth Verif.Poseidon

variable {σ : Type}

section Ring
variable {Fp F C : Type} {N τ : Nat} [Field Fp] [Field F] [DecidableEq F] [Algebra Fp F] [CommRing C]
  [Algebra Fp C]

/-- **C54**, a step that goes unnoticed: as in `C54_step_long` all pieces of the new witness but the last are short, and the last has
vanishing slot sums and coefficients bounded by `M / 2`. If combinations with such a last element fit in `K` digits, then for
every transcript the verifier accepts a proof, and the new accumulator holds for a witness within the range of the next decomposition. -/
theorem C54_step_unnoticed (rd : RingData Fp F C N τ) (P : Params) (cs : ChallengeSet C)
    (T : Transcript F (Fin N → F) σ) (s : σ) (ccs : CCS (Fin N → F)) (scheme : Ajtai (Fin N → F))
    (acc : LCCCS (Fin N → F)) (wAcc : Witness (Fin N → F) C) (cm : CCCS (Fin N → F)) (w : Witness (Fin N → F) C)
    (hP : ParamsOK Fp P) (hS : SizesOK P ccs scheme) (ht : ccs.t = ccs.M.length) (al : Aligned ccs)
    (hc : CharGt F (2 * P.bSmall)) (hd : CharGt F (ccs.d + 1))
    (hT : ∀ s n, (T.bytes s n).1.length = n)
    (hcs : ∀ bs, bs.length = cs.bytesNeeded → ∃ c, cs.decode bs = .ok c) {M : Nat} (hN : NormLast rd P cs M)
    (hacc : LcccsHolds rd P ccs scheme acc wAcc) (hsh : WitShort rd (reach P.bSmall P.K) wAcc)
    (hw : WitOK rd P (ccs.n - ccs.l - 1) w) (hopen : scheme.commit w.f = .ok cm.cm) (hx : cm.x_ccs.length = ccs.l)
    (hsat : CCSHolds ccs ((cm.x_ccs ++ [1]) ++ w.wCcs))
    (fc : Nat → List C) (hfcl : ∀ k, (fc k).length = (ccs.n - ccs.l - 1) * P.L)
    (hcomb : IsComb P.K (fun k => ((P.bSmall ^ k : Nat) : C)) fc w.fCoeff ((ccs.n - ccs.l - 1) * P.L))
    (hfs : ∀ k < P.K - 1, ∀ c ∈ fc k, ∀ i, Short P.bSmall (rd.coeff c i))
    (hfl : ∀ c ∈ fc (P.K - 1), ∀ a : Fin N, ∑ j : Fin τ, rangePoly P.bSmall (rd.coeff c (finProdFinEquiv (j, a))) = 0)
    (hfM : ∀ c ∈ fc (P.K - 1), ∀ i, Short M (rd.coeff c i)) :
    ∃ proof st w' s', nifsVerify rd P cs T s acc cm proof ccs = .ok (st, s') ∧ LcccsHolds rd P ccs scheme st w' ∧
      WitShort rd (reach P.bSmall P.K) w' ∧
      (∀ d ∈ [proof.decL, proof.decR], d.uS.length = P.K ∧ d.vS.length = P.K ∧ d.xS.length = P.K ∧ d.yS.length = P.K) ∧
      ∀ k < P.K, proof.decR.yS[k]? = some ⟨scheme.matrix.vals.map fun row => dot row ((fc k).map rd.crt)⟩ := by
  have hK := hP.Kpos
  have hlt : 2 * P.K - 1 < 2 * P.K := by omega
  obtain ⟨proof, st, w', s', h1, h2, h3, h4, rho, f, r1, r2, r3, r4, r5⟩ := step_long_comb rd P cs T s ccs scheme acc wAcc cm w
    hP hS ht al hc hd hT hcs hacc hsh hw hopen hx hsat fc hfcl hcomb hfs hfl
  refine ⟨proof, st, w', s', h1, h2, ?_, h3, h4⟩
  intro c hcm i
  obtain ⟨j, hj, rfl⟩ := List.mem_iff_getElem.1 hcm
  have hjn : j < (ccs.n - ccs.l - 1) * P.L := by rw [← r5.len]; exact hj
  have e := r5.eq j hjn
  rw [List.getD_eq_getElem?_getD, List.getElem?_eq_getElem hj, Option.getD_some] at e
  rw [e]
  have hget : ∀ k < 2 * P.K, (f k).getD j 0 ∈ f k := by
    intro k hk
    have hjk : j < (f k).length := by rw [r5.lens k hk]; exact hjn
    rw [List.getD_eq_getElem?_getD, List.getElem?_eq_getElem hjk, Option.getD_some]
    exact List.getElem_mem hjk
  refine hN rho (fun k => (f k).getD j 0) r1 r2 (fun k hk i => ?_) (fun i => ?_) i
  · exact r3 k hk _ (hget k (by omega)) i
  · refine hfM _ ?_ i
    rw [← r4]
    exact hget _ hlt

/-- Short coefficients of the pairs make a short element. -/
theorem pairElem_short (rd : RingData Fp F C N τ) {M : Nat} {e : Fin (τ / 2) → Fin N → Fp} (h : ∀ p a, Short M (e p a)) :
    ∀ i, Short M (rd.coeff (pairElem rd e) i) := by
  intro i
  rw [pairElem_coeff]
  simp only [pairCoeffs, LinearMap.coe_mk, AddHom.coe_mk]
  split <;> [split; skip]
  · exact h _ _
  · obtain ⟨n, h1, h2⟩ := h ⟨_, ‹_›⟩ (finProdFinEquiv.symm i).2
    exact ⟨-n, by simpa using h1, by rw [h2]; push_cast; rfl⟩
  · exact ⟨0, by simp, by simp⟩

theorem pairList_getD (rd : RingData Fp F C N τ) {n : Nat} (v : Fin n → Fin (τ / 2) → Fin N → Fp) {j : Nat} (hj : j < n) :
    (pairList rd n v).getD j 0 = pairElem rd (v ⟨j, hj⟩) := by
  rw [pairList, getD_map_range _ _ hj, pairAt, pairSel, dif_pos hj]
  rfl

/-- What an opposite-pair vector has to change in the commitment of `w` so that it becomes `y`. -/
def pairTarget (rd : RingData Fp F C N τ) (q : Nat) (rows : List (List (Fin N → F))) (w : Witness (Fin N → F) C) (y : Commitment (Fin N → F)) :
    Fin rows.length → Fin (τ * N) → Fp :=
  fun i => rd.coeff (rd.crt.symm fun a => (q : F)⁻¹ * (y.val.getD i 0 a - dot (rows.getD i []) w.f a))

/-- A step from `(y, x)` that goes unnoticed, from one list `v` of opposite pairs that recomposes to zero and has the commitment that is
needed. The multiples `b^(K-1) v` have to be `b^(K-1) d + r` with `d` bounded by `M / 2`, `r` bounded by `R / 2`. -/
theorem unnoticed_of_pairs (rd : RingData Fp F C N τ) (P : Params) (cs : ChallengeSet C)
    (ccs : CCS (Fin N → F)) (scheme : Ajtai (Fin N → F)) (x : List (Fin N → F)) (w : Witness (Fin N → F) C)
    (hP : ParamsOK Fp P) (hS : SizesOK P ccs scheme) (ht : ccs.t = ccs.M.length) (al : Aligned ccs)
    (hc : CharGt F (2 * P.bSmall)) (hd : CharGt F (ccs.d + 1))
    (hcs : ∀ bs, bs.length = cs.bytesNeeded → ∃ c, cs.decode bs = .ok c) (hK : 2 ≤ P.K)
    {M R R₀ : Nat} (hN : NormLast rd P cs M)
    (hR : R + R₀ ≤ reach P.bSmall (P.K - 1))
    (hw : WitOK rd P (ccs.n - ccs.l - 1) w) (hx : x.length = ccs.l) (hsat : CCSHolds ccs ((x ++ [1]) ++ w.wCcs))
    (hws : WitShort rd R₀ w)
    (y : Commitment (Fin N → F)) (hy : y.val.length = scheme.matrix.vals.length)
    (v : Fin ((ccs.n - ccs.l - 1) * P.L) → Fin (τ / 2) → Fin N → Fp)
    (hv : pairMap rd scheme.matrix.vals ((ccs.n - ccs.l - 1) * P.L) (ccs.n - ccs.l - 1) P.L P.B v =
      (pairTarget rd (P.bSmall ^ (P.K - 1)) scheme.matrix.vals w y, 0))
    (hsp : ∀ i p a, ∃ d r : Fp, ((P.bSmall ^ (P.K - 1) : Nat) : Fp) * v i p a = ((P.bSmall ^ (P.K - 1) : Nat) : Fp) * d + r ∧
      Short M d ∧ Short R r)
    (T : Transcript F (Fin N → F) σ) (s : σ) (acc : LCCCS (Fin N → F)) (wAcc : Witness (Fin N → F) C)
    (hT : ∀ s n, (T.bytes s n).1.length = n) (hacc : LcccsHolds rd P ccs scheme acc wAcc) (hsh : WitShort rd (reach P.bSmall P.K) wAcc) :
    ∃ proof st w'' s', nifsVerify rd P cs T s acc ⟨y, x⟩ proof ccs = .ok (st, s') ∧ LcccsHolds rd P ccs scheme st w'' ∧
      WitShort rd (reach P.bSmall P.K) w'' ∧
      (∀ d ∈ [proof.decL, proof.decR], d.uS.length = P.K ∧ d.vS.length = P.K ∧ d.xS.length = P.K ∧ d.yS.length = P.K) := by
  have hb2 := hP.b2
  have hbne : ((P.bSmall : Nat) : F) ≠ 0 := hc P.bSmall (by omega) (by omega)
  have hbK : ((P.bSmall ^ (P.K - 1) : Nat) : F) ≠ 0 := by
    rw [Nat.cast_pow]
    exact pow_ne_zero _ hbne
  have hsmall : WitShort rd (reach P.bSmall (P.K - 1)) w := fun c hc i => Verif.short_mono (by omega) (hws c hc i)
  have hfl : w.fCoeff.length = (ccs.n - ccs.l - 1) * P.L := hw.flen
  have hcomb0 : IsComb (P.K - 1) (fun k => ((P.bSmall ^ k : Nat) : C)) (fun k => w.fCoeff.map fun c => (dg rd P.bSmall (P.K - 1) c).getD k 0)
      w.fCoeff ((ccs.n - ccs.l - 1) * P.L) := by
    refine ⟨hfl, fun k _ => by rw [List.length_map, hfl], fun j hj => ?_⟩
    have hj' : j < w.fCoeff.length := by rw [hfl]; exact hj
    have hfits : Fits rd P.bSmall (P.K - 1) (w.fCoeff.getD j 0) := getD_short rd hsmall j
    refine Eq.trans (dg_ok rd hP.b2 hP.bEven (by omega) hfits).2.2.1.symm (sum_congr rfl fun k hk => ?_)
    rw [Nat.cast_pow]
    congr 1
    simp [List.getD_eq_getElem?_getD, hj']
  obtain ⟨-, w', hok, -, -, -, -, hgi, hdot, hwc⟩ := pair_shift rd P hP.Kpos scheme hw _ hcomb0 v (by rw [hv])
  have hcomm : scheme.commit w'.f = .ok y := by
    rw [commit_ok scheme _ (by rw [hok.f, List.length_map, hok.flen, hS.width])]
    obtain ⟨yv⟩ := y
    congr 2
    apply List.ext_getElem (by rw [List.length_map]; exact hy.symm)
    intro k hk hk'
    have hk1 : k < scheme.matrix.vals.length := by rw [List.length_map] at hk; exact hk
    rw [List.getElem_map, hdot k hk1, hv]
    simp only [pairTarget, LinearEquiv.symm_apply_apply, AlgEquiv.apply_symm_apply]
    funext a
    have e1 : yv.getD k 0 = yv[k] := by simp [List.getD_eq_getElem?_getD, hk']
    have e2 : scheme.matrix.vals.getD k [] = scheme.matrix.vals[k] := by simp [List.getD_eq_getElem?_getD, hk1]
    rw [e1, e2, Pi.add_apply, Pi.mul_apply, Pi.natCast_apply, ← mul_assoc, mul_inv_cancel₀ hbK]
    ring
  -- the pairs, divided with rest
  choose d r hdr hdM hrR using hsp
  obtain ⟨n, hn⟩ : ∃ n, n = (ccs.n - ccs.l - 1) * P.L := ⟨_, rfl⟩
  clear hv hdot hcomb0
  rw [← hn] at hfl
  revert hgi
  revert d r
  revert v
  rw [← hn]
  intro v d r hdr hdM hrR hgi
  set q : Fp := ((P.bSmall ^ (P.K - 1) : Nat) : Fp) with hq
  set vd : Fin n → Fin (τ / 2) → Fin N → Fp := fun i p a => d i p a with hvd
  set vr : Fin n → Fin (τ / 2) → Fin N → Fp := fun i p a => r i p a with hvr
  have hqC : ∀ c : C, ((P.bSmall ^ (P.K - 1) : Nat) : C) * c = q • c := by
    intro c
    rw [Algebra.smul_def, hq, map_natCast]
  have hpair : ∀ i : Fin n, q • pairElem rd (v i) = q • pairElem rd (vd i) + pairElem rd (vr i) := by
    intro i
    rw [← map_smul, ← map_smul, ← map_add]
    congr 1
    funext p a
    exact hdr i p a
  -- the part below the last digit
  set low : Nat → C := fun j => if h : j < n then w.fCoeff.getD j 0 + pairElem rd (vr ⟨j, h⟩) else 0 with hlow
  have hlowfit : ∀ j < n, Fits rd P.bSmall (P.K - 1) (low j) := by
    intro j hj i
    simp only [hlow, dif_pos hj]
    obtain ⟨n1, a1, a2⟩ := getD_short rd hws j i
    obtain ⟨n2, b1, b2⟩ := pairElem_short rd (e := vr ⟨j, hj⟩) (fun p a => hrR _ _ _) i
    refine ⟨n1 + n2, ?_, by rw [map_add, Pi.add_apply, a2, b2]; push_cast; rfl⟩
    have := Int.natAbs_add_le n1 n2
    omega
  set fc : Nat → List C := fun k => if k < P.K - 1 then (List.range n).map fun j => (dg rd P.bSmall (P.K - 1) (low j)).getD k 0
    else pairList rd n vd with hfc
  have hfcl : ∀ k, (fc k).length = n := by
    intro k
    simp only [hfc]
    split <;> simp [pairList]
  have hlast : fc (P.K - 1) = pairList rd n vd := by simp [hfc]
  have hcomb : IsComb P.K (fun k => ((P.bSmall ^ k : Nat) : C)) fc w'.fCoeff n := by
    refine ⟨hok.flen.trans hn.symm, fun k _ => hfcl k, fun j hj => ?_⟩
    rw [hgi j hj, show P.K = (P.K - 1) + 1 by omega, sum_range_succ]
    simp only [Nat.add_sub_cancel]
    rw [hlast, pairList_getD rd v hj, pairList_getD rd vd hj, hqC, hqC, hpair ⟨j, hj⟩]
    have h1 : ∑ k ∈ range (P.K - 1), ((P.bSmall ^ k : Nat) : C) * (fc k).getD j 0 = low j := by
      refine Eq.trans (sum_congr rfl fun k hk => ?_) (dg_ok rd hP.b2 hP.bEven (by omega) (hlowfit j hj)).2.2.1
      simp only [hfc, if_pos (mem_range.1 hk)]
      rw [getD_map_range _ _ hj, Nat.cast_pow]
    rw [h1]
    simp only [hlow, dif_pos hj]
    ring
  have hin : ∀ c ∈ fc (P.K - 1), ∃ i, c = pairElem rd (vd i) := by
    intro c hc
    rw [hlast] at hc
    obtain ⟨j, hj, rfl⟩ := List.mem_iff_getElem.1 hc
    have hj' : j < n := by simpa [pairList] using hj
    refine ⟨⟨j, hj'⟩, ?_⟩
    rw [← pairList_getD rd vd hj', List.getD_eq_getElem?_getD, List.getElem?_eq_getElem hj, Option.getD_some]
  obtain ⟨proof, st, w'', s', h1, h2, h3, h4, -⟩ := C54_step_unnoticed rd P cs T s ccs scheme acc wAcc ⟨y, x⟩ w' hP hS ht al hc hd hT hcs
    hN hacc hsh hok hcomm hx (by rw [hwc]; exact hsat) fc (fun k => by rw [hfcl, hn]) (by rw [← hn]; exact hcomb)
    (by
      intro k hk c hcm
      simp only [hfc, if_pos hk] at hcm
      obtain ⟨j, hj, rfl⟩ := List.mem_map.1 hcm
      exact getD_short rd (dg_ok rd hP.b2 hP.bEven (by omega) (hlowfit j (List.mem_range.1 hj))).2.2.2 k)
    (by
      intro c hcm a
      obtain ⟨i, rfl⟩ := hin c hcm
      exact pairElem_slots rd P.bSmall (by omega) _ a)
    (by
      intro c hcm
      obtain ⟨i, rfl⟩ := hin c hcm
      exact pairElem_short rd fun p a => hdM _ _ _)
  exact ⟨proof, st, w'', s', h1, h2, h3, h4⟩

/-- **C54**, any commitment at all, unnoticed. Let `w` satisfy the constraint system with the public input `x`, let its coefficients be bounded by
`R₀ / 2`, and let the lists of opposite pairs that recompose to zero reach every commitment. If every value of the base field is
`b^(K-1) d + r` with `d` bounded by `M / 2`, `r` bounded by `R / 2`, and `R + R₀` fits in `K - 1` digits, then for every commitment
`y` the verifier accepts a step from `(y, x)`, and the new accumulator is valid and in range, as after an honest step. -/
theorem C54_any_commitment_unnoticed (rd : RingData Fp F C N τ) (P : Params) (cs : ChallengeSet C)
    (ccs : CCS (Fin N → F)) (scheme : Ajtai (Fin N → F)) (x : List (Fin N → F)) (w : Witness (Fin N → F) C)
    (hP : ParamsOK Fp P) (hS : SizesOK P ccs scheme) (ht : ccs.t = ccs.M.length) (al : Aligned ccs)
    (hc : CharGt F (2 * P.bSmall)) (hd : CharGt F (ccs.d + 1))
    (hcs : ∀ bs, bs.length = cs.bytesNeeded → ∃ c, cs.decode bs = .ok c) (hK : 2 ≤ P.K)
    {M R R₀ : Nat} (hN : NormLast rd P cs M) (hsp : Splits Fp (P.bSmall ^ (P.K - 1)) M R)
    (hR : R + R₀ ≤ reach P.bSmall (P.K - 1))
    (hw : WitOK rd P (ccs.n - ccs.l - 1) w) (hx : x.length = ccs.l) (hsat : CCSHolds ccs ((x ++ [1]) ++ w.wCcs))
    (hws : WitShort rd R₀ w)
    (hspan : ∀ t, ∃ v, pairMap rd scheme.matrix.vals ((ccs.n - ccs.l - 1) * P.L) (ccs.n - ccs.l - 1) P.L P.B v = (t, 0))
    (y : Commitment (Fin N → F)) (hy : y.val.length = scheme.matrix.vals.length)
    (T : Transcript F (Fin N → F) σ) (s : σ) (acc : LCCCS (Fin N → F)) (wAcc : Witness (Fin N → F) C)
    (hT : ∀ s n, (T.bytes s n).1.length = n) (hacc : LcccsHolds rd P ccs scheme acc wAcc) (hsh : WitShort rd (reach P.bSmall P.K) wAcc) :
    ∃ proof st w'' s', nifsVerify rd P cs T s acc ⟨y, x⟩ proof ccs = .ok (st, s') ∧ LcccsHolds rd P ccs scheme st w'' ∧
      WitShort rd (reach P.bSmall P.K) w'' ∧
      (∀ d ∈ [proof.decL, proof.decR], d.uS.length = P.K ∧ d.vS.length = P.K ∧ d.xS.length = P.K ∧ d.yS.length = P.K) := by
  obtain ⟨v, hv⟩ := hspan (pairTarget rd (P.bSmall ^ (P.K - 1)) scheme.matrix.vals w y)
  exact unnoticed_of_pairs rd P cs ccs scheme x w hP hS ht al hc hd hcs hK hN hR hw hx hsat hws y hy v hv (fun _ _ _ => hsp _) T s acc wAcc
    hT hacc hsh

/-- From steps to chains. -/
theorem chain_of_step (rd : RingData Fp F C N τ) (P : Params) (cs : ChallengeSet C) (ccs : CCS (Fin N → F)) (scheme : Ajtai (Fin N → F))
    (T : Transcript F (Fin N → F) σ) (Q : CCCS (Fin N → F) → Prop)
    (hQ : ∀ cm, Q cm → ∀ (s : σ) (acc : LCCCS (Fin N → F)) (wAcc : Witness (Fin N → F) C), LcccsHolds rd P ccs scheme acc wAcc →
      WitShort rd (reach P.bSmall P.K) wAcc → ∃ proof st w'' s', nifsVerify rd P cs T s acc cm proof ccs = .ok (st, s') ∧
        LcccsHolds rd P ccs scheme st w'' ∧ WitShort rd (reach P.bSmall P.K) w'')
    (stmts : List (CCCS (Fin N → F))) :
    (∀ cm ∈ stmts, Q cm) → ∀ (s : σ) (acc : LCCCS (Fin N → F)) (wAcc : Witness (Fin N → F) C), LcccsHolds rd P ccs scheme acc wAcc →
      WitShort rd (reach P.bSmall P.K) wAcc → ∃ proofs accs acc' w' s', proofs.length = stmts.length ∧
        ivcVerify rd P cs T ccs (stmts.zip proofs) s acc = .ok ((accs, acc'), s') ∧
        LcccsHolds rd P ccs scheme acc' w' ∧ WitShort rd (reach P.bSmall P.K) w' := by
  induction stmts with
  | nil =>
    intro _ s acc wAcc hacc hsh
    exact ⟨[], [], acc, wAcc, s, rfl, rfl, hacc, hsh⟩
  | cons cm rest ih =>
    intro hst s acc wAcc hacc hsh
    obtain ⟨proof, st, w'', s', h1, h2, h3⟩ := hQ cm (hst cm (by simp)) s acc wAcc hacc hsh
    obtain ⟨proofs, accs, acc', w', s'', e1, e2, e3, e4⟩ := ih (fun c hc => hst c (by simp [hc])) s' st w'' h2 h3
    refine ⟨proof :: proofs, st :: accs, acc', w', s'', by simp [e1], ?_, e3, e4⟩
    simp only [List.zip_cons_cons, ivcVerify, h1, e2, bind, Except.bind]

/-- **C54**, a whole accumulation of arbitrary commitments. Under the conditions of `C54_any_commitment_unnoticed`: for any number of statements
whose public inputs have short satisfying witnesses, with any commitments, the verifier accepts every step, and the last accumulator is valid
for a witness in range. -/
theorem C54_chain_unnoticed (rd : RingData Fp F C N τ) (P : Params) (cs : ChallengeSet C)
    (ccs : CCS (Fin N → F)) (scheme : Ajtai (Fin N → F))
    (hP : ParamsOK Fp P) (hS : SizesOK P ccs scheme) (ht : ccs.t = ccs.M.length) (al : Aligned ccs)
    (hc : CharGt F (2 * P.bSmall)) (hd : CharGt F (ccs.d + 1))
    (hcs : ∀ bs, bs.length = cs.bytesNeeded → ∃ c, cs.decode bs = .ok c) (hK : 2 ≤ P.K)
    {M R R₀ : Nat} (hN : NormLast rd P cs M) (hsp : Splits Fp (P.bSmall ^ (P.K - 1)) M R)
    (hR : R + R₀ ≤ reach P.bSmall (P.K - 1))
    (hspan : ∀ t, ∃ v, pairMap rd scheme.matrix.vals ((ccs.n - ccs.l - 1) * P.L) (ccs.n - ccs.l - 1) P.L P.B v = (t, 0))
    (T : Transcript F (Fin N → F) σ) (hT : ∀ s n, (T.bytes s n).1.length = n) (stmts : List (CCCS (Fin N → F)))
    (hst : ∀ cm ∈ stmts, cm.cm.val.length = scheme.matrix.vals.length ∧ ShortInput rd P ccs R₀ cm.x_ccs)
    (s : σ) (acc : LCCCS (Fin N → F)) (wAcc : Witness (Fin N → F) C)
    (hacc : LcccsHolds rd P ccs scheme acc wAcc) (hsh : WitShort rd (reach P.bSmall P.K) wAcc) :
    ∃ proofs accs acc' w' s', proofs.length = stmts.length ∧
      ivcVerify rd P cs T ccs (stmts.zip proofs) s acc = .ok ((accs, acc'), s') ∧
      LcccsHolds rd P ccs scheme acc' w' ∧ WitShort rd (reach P.bSmall P.K) w' := by
  refine chain_of_step rd P cs ccs scheme T _ ?_ stmts hst s acc wAcc hacc hsh
  rintro cm ⟨hlen, hx, w, hw, hsat, hws⟩ s acc wAcc hacc hsh
  obtain ⟨proof, st, w'', s', h1, h2, h3, -⟩ := C54_any_commitment_unnoticed rd P cs ccs scheme cm.x_ccs w hP hS ht al hc hd hcs hK hN hsp hR
    hw hx hsat hws hspan cm.cm hlen T s acc wAcc hT hacc hsh
  exact ⟨proof, st, w'', s', h1, h2, h3⟩

end Ring

section Shipped
variable {F C : Type} [Field F] [CommRing C]

/-- **C54**, the bound for the last piece. For all parameter sets of the benchmarks for which the folded witness of honest steps fits in the next
decomposition (C85), it also fits when the last piece of the new witness has coefficients up to `M / 2` with `M = 59646` (Goldilocks), `M = 37822`
(BabyBear) and `M = 126974` (Frog), where the range check is meant to enforce `M = b = 2`. -/
theorem C54_last_bound_shipped :
    (∀ (F C : Type) [Field F] [CommRing C] [Algebra (ZMod pGoldilocks) F] [Algebra (ZMod pGoldilocks) C]
      (rd : RingData (ZMod pGoldilocks) F C 8 3), rd.X ^ 24 - rd.X ^ 12 + 1 = 0 → ∀ P ∈ benchGoldilocks, 16 ≤ P.K →
        NormLast rd P (packedSet rd.coeff) 59646) ∧
    (∀ (F C : Type) [Field F] [CommRing C] [Algebra (ZMod pBabyBear) F] [Algebra (ZMod pBabyBear) C]
      (rd : RingData (ZMod pBabyBear) F C 8 9), rd.X ^ 72 - rd.X ^ 36 + 1 = 0 → ∀ P ∈ benchBabyBear, 16 ≤ P.K →
        NormLast rd P (packedSet rd.coeff) 37822) ∧
    (∀ (F C : Type) [Field F] [CommRing C] [Algebra (ZMod pFrog) F] [Algebra (ZMod pFrog) C]
      (rd : RingData (ZMod pFrog) F C 4 4), rd.X ^ 16 + 1 = 0 → ∀ P ∈ benchFrog, 17 ≤ P.K →
        NormLast rd P (frogSet rd.coeff) 126974) := by
  have k1 : ∀ P ∈ benchGoldilocks, 16 ≤ P.K → Even P.bSmall ∧ P.bSmall * ((2 * P.K - 1) * (36 * 32)) + 59646 ≤ reach P.bSmall P.K := by
    unfold reach; decide +kernel
  have k2 : ∀ P ∈ benchBabyBear, 16 ≤ P.K → Even P.bSmall ∧ P.bSmall * ((2 * P.K - 1) * (47 * 32)) + 37822 ≤ reach P.bSmall P.K := by
    unfold reach; decide +kernel
  have k3 : ∀ P ∈ benchFrog, 17 ≤ P.K → Even P.bSmall ∧ P.bSmall * ((2 * P.K - 1) * (16 * 128)) + 126974 ≤ reach P.bSmall P.K := by
    unfold reach; decide +kernel
  refine ⟨?_, ?_, ?_⟩
  · intro F C _ _ _ _ rd hX P hP hK
    exact normLast_of rd P _ (table_goldilocks rd hX) (bounded_packed rd) (k1 P hP hK).1 (by omega) (k1 P hP hK).2
  · intro F C _ _ _ _ rd hX P hP hK
    exact normLast_of rd P _ (table_babybear rd hX) (bounded_packed rd) (k2 P hP hK).1 (by omega) (k2 P hP hK).2
  · intro F C _ _ _ _ rd hX P hP hK
    exact normLast_of rd P _ (table_frog rd hX) (bounded_frog rd) (k3 P hP hK).1 (by omega) (k3 P hP hK).2

/-- The set for Frog with `L = 2` in `benches/config.toml`. -/
def frogL2 : Params := ⟨17179869184, 2, 2, 34⟩

theorem frogL2_norm [Algebra (ZMod pFrog) F] [Algebra (ZMod pFrog) C]
    (rd : RingData (ZMod pFrog) F C 4 4) (hX : rd.X ^ 16 + 1 = 0) : NormLast rd frogL2 (frogSet rd.coeff) (2 ^ 34) :=
  normLast_of rd frogL2 _ (table_frog rd hX) (bounded_frog rd) (by decide) (by decide) (by unfold reach; decide +kernel)

theorem frogL2_splits : Splits (ZMod pFrog) (frogL2.bSmall ^ (frogL2.K - 1)) (2 ^ 34) (2 ^ 33) :=
  splits_of (by decide) (by decide +kernel)

/-- **C54** fails for a shipped parameter set with nothing left to notice (Frog, `L = 2`, `B = 2^34`, `K = 34`). For all matrices but a fraction of
`p^(16 κ) / p^(4 |w|)` the following holds for every commitment `y` of `κ` elements: if the public input `x` has a satisfying witness with
coefficients of absolute value below `2^32`, whatever its commitment is, then the verifier accepts a step from the statement `(y, x)`, for
every transcript and every valid accumulator, and the accumulator it returns is valid for a witness in range, as after an honest step. -/
theorem C54_frog_unnoticed [Fintype F] [DecidableEq F] [Algebra (ZMod pFrog) F] [Algebra (ZMod pFrog) C]
    (rd : RingData (ZMod pFrog) F C 4 4) (hX : rd.X ^ 16 + 1 = 0) (ccs : CCS (Fin 4 → F)) (κ : Nat) (hS : LinShape ccs) (hnl : ccs.l + 1 < ccs.n)
    (hhat : Nat.clog 2 ((ccs.n - ccs.l - 1) * 2) = ccs.s) (ht : ccs.t = ccs.M.length) (al : Aligned ccs) (hd : ccs.d + 1 < pFrog) :
    ∃ Bad : Finset (Fin κ → Fin ((ccs.n - ccs.l - 1) * 2) → Fin 4 → F),
      Bad.card * pFrog ^ (4 * (ccs.n - ccs.l - 1))
        ≤ pFrog ^ (16 * κ) * Nat.card (Fin κ → Fin ((ccs.n - ccs.l - 1) * 2) → Fin 4 → F) ∧
      ∀ A ∉ Bad, ∀ y : Commitment (Fin 4 → F), y.val.length = κ →
        ∀ (x : List (Fin 4 → F)) (w : Witness (Fin 4 → F) C), WitOK rd frogL2 (ccs.n - ccs.l - 1) w → x.length = ccs.l →
          CCSHolds ccs ((x ++ [1]) ++ w.wCcs) → WitShort rd (2 ^ 33 - 2) w →
          ∀ (T : Transcript F (Fin 4 → F) σ) (s : σ) (acc : LCCCS (Fin 4 → F)) (wAcc : Witness (Fin 4 → F) C),
            (∀ s n, (T.bytes s n).1.length = n) →
            LcccsHolds rd frogL2 ccs ⟨⟨κ, (ccs.n - ccs.l - 1) * 2, matRows A⟩⟩ acc wAcc → WitShort rd (reach 2 34) wAcc →
            ∃ proof st w'' s', nifsVerify rd frogL2 (frogSet rd.coeff) T s acc ⟨y, x⟩ proof ccs = .ok (st, s') ∧
              LcccsHolds rd frogL2 ccs ⟨⟨κ, (ccs.n - ccs.l - 1) * 2, matRows A⟩⟩ st w'' ∧ WitShort rd (reach 2 34) w'' := by
  classical
  obtain ⟨e, he⟩ := unitSpan_min rd (by norm_num) (C54_units_shipped.2.2 F C rd hX)
  refine ⟨univ.filter fun A => ¬ PairsReach rd frogL2.B A, ?_, ?_⟩
  · have := bad_count rd κ (ccs.n - ccs.l - 1) 2 frogL2.B _ (by norm_num) (by decide +kernel) he
    rw [Nat.card_eq_fintype_card]
    rw [ZMod.card] at this
    have e1 : (ccs.n - ccs.l - 1) * (2 - 1) * min 4 4 = 4 * (ccs.n - ccs.l - 1) := by
      rw [min_self]
      ring
    have e2 : κ * (4 * 4) = 16 * κ := by ring
    rw [e1, e2] at this
    exact this
  · intro A hA y hy x w hw hx hsat hws T s acc wAcc hT hacc hsh
    have hr : PairsReach rd frogL2.B A := by
      by_contra h
      exact hA (mem_filter.2 ⟨mem_univ _, h⟩)
    have hSz : SizesOK frogL2 ccs (⟨⟨κ, (ccs.n - ccs.l - 1) * 2, matRows A⟩⟩ : Ajtai (Fin 4 → F)) := by
      refine ⟨hS, hnl, hhat, ⟨by simp [matRows], ?_⟩, rfl⟩
      intro row hrow
      obtain ⟨r, rfl⟩ := (List.mem_ofFn' _ _).1 hrow
      simp
    obtain ⟨proof, st, w'', s', h1, h2, h3, -⟩ := C54_any_commitment_unnoticed rd frogL2 (frogSet rd.coeff) ccs _ x w
      (C85_params_fit.2.2.1 frogL2 (by decide)).2 hSz ht al (charGt_algebra (p := pFrog) (by decide +kernel)) (charGt_algebra hd)
      (fun bs hbs => by
        obtain ⟨c, _, hc, -⟩ := C45_values rd.coeff bs hbs
        exact ⟨c, hc⟩)
      (by decide) (frogL2_norm rd hX) frogL2_splits (R₀ := 2 ^ 33 - 2) (by unfold reach; decide +kernel) hw hx hsat hws
      (pairSpan_of rd frogL2.B A hr) y (by simpa [matRows] using hy) T s acc wAcc hT hacc hsh
    exact ⟨proof, st, w'', s', h1, h2, h3⟩

/-- **C54**, a whole accumulation of such statements. With the parameters of `C54_frog_unnoticed` and all matrices but the same fraction: for any
number of statements with arbitrary commitments, the verifier accepts every step, and the last accumulator is valid for a witness in range. -/
theorem C54_frog_chain [Fintype F] [DecidableEq F] [Algebra (ZMod pFrog) F] [Algebra (ZMod pFrog) C]
    (rd : RingData (ZMod pFrog) F C 4 4) (hX : rd.X ^ 16 + 1 = 0) (ccs : CCS (Fin 4 → F)) (κ : Nat) (hS : LinShape ccs) (hnl : ccs.l + 1 < ccs.n)
    (hhat : Nat.clog 2 ((ccs.n - ccs.l - 1) * 2) = ccs.s) (ht : ccs.t = ccs.M.length) (al : Aligned ccs) (hd : ccs.d + 1 < pFrog)
    (T : Transcript F (Fin 4 → F) σ) (hT : ∀ s n, (T.bytes s n).1.length = n) :
    ∃ Bad : Finset (Fin κ → Fin ((ccs.n - ccs.l - 1) * 2) → Fin 4 → F),
      Bad.card * pFrog ^ (4 * (ccs.n - ccs.l - 1))
        ≤ pFrog ^ (16 * κ) * Nat.card (Fin κ → Fin ((ccs.n - ccs.l - 1) * 2) → Fin 4 → F) ∧
      ∀ A ∉ Bad, ∀ stmts : List (CCCS (Fin 4 → F)),
        (∀ cm ∈ stmts, cm.cm.val.length = κ ∧ ShortInput rd frogL2 ccs (2 ^ 33 - 2) cm.x_ccs) →
        ∀ (s : σ) (acc : LCCCS (Fin 4 → F)) (wAcc : Witness (Fin 4 → F) C),
          LcccsHolds rd frogL2 ccs ⟨⟨κ, (ccs.n - ccs.l - 1) * 2, matRows A⟩⟩ acc wAcc → WitShort rd (reach 2 34) wAcc →
          ∃ proofs accs acc' w' s', proofs.length = stmts.length ∧
            ivcVerify rd frogL2 (frogSet rd.coeff) T ccs (stmts.zip proofs) s acc = .ok ((accs, acc'), s') ∧
            LcccsHolds rd frogL2 ccs ⟨⟨κ, (ccs.n - ccs.l - 1) * 2, matRows A⟩⟩ acc' w' ∧ WitShort rd (reach 2 34) w' := by
  obtain ⟨Bad, hc, hBad⟩ := C54_frog_unnoticed (σ := σ) rd hX ccs κ hS hnl hhat ht al hd
  refine ⟨Bad, hc, fun A hA stmts hst s acc wAcc hacc hsh =>
    chain_of_step rd frogL2 (frogSet rd.coeff) ccs _ T (fun cm => cm.cm.val.length = κ ∧ ShortInput rd frogL2 ccs (2 ^ 33 - 2) cm.x_ccs) ?_
      stmts hst s acc wAcc hacc hsh⟩
  rintro cm ⟨hlen, hx, w, hw, hsat, hws⟩ s acc wAcc hacc hsh
  exact hBad A hA cm.cm hlen cm.x_ccs w hw hx hsat hws T s acc wAcc hT hacc hsh

end Shipped

section Examples
open Verif.Example

/-- As in `C54_false_statement`, with `K = 3`. -/
def parUn : Params := ⟨2, 4, 2, 3⟩

theorem parUn_ok : ParamsOK (ZMod 7) parUn where
  bEven := by decide
  b2 := by decide
  BEven := by decide
  B2 := by decide
  Lpos := by decide
  Kpos := by decide
  BK := by decide
  cover := parFs_ok.cover
  nooverflow := by decide

theorem parUn_norm : NormLast ring49 parUn cs49 2 := by
  intro rho x _ _ _ _ i
  have hcov : ∀ x : ZMod 7, 2 * x.valMinAbs.natAbs ≤ reach 2 3 := by decide
  exact short7.2 (hcov _)

/-- Over `F_7[X]/(X^2+1)` with `b = 2`, `K = 3` the commitment `3 + 5X` is folded into any valid accumulator. -/
example {σ : Type} (T : Transcript F49 C49 σ) (s : σ) (hT : ∀ s n, (T.bytes s n).1.length = n) (acc : LCCCS C49) (wAcc : Witness C49 C49)
    (hacc : LcccsHolds ring49 parUn ccsFs schemeFs acc wAcc) (hsh : WitShort ring49 (reach 2 3) wAcc) :
    ∃ proof st w'' s', nifsVerify ring49 parUn cs49 T s acc ⟨⟨[![⟨3, 5⟩]]⟩, [0]⟩ proof ccsFs = .ok (st, s') ∧
      LcccsHolds ring49 parUn ccsFs schemeFs st w'' ∧ WitShort ring49 (reach 2 3) w'' := by
  obtain ⟨proof, st, w'', s', h1, h2, h3, -⟩ := C54_any_commitment_unnoticed ring49 parUn cs49 ccsFs schemeFs [0] (mkWit ring49 parUn 1 [0, 0, 0, 0])
    parUn_ok ⟨sizesFs.sh, sizesFs.nl, sizesFs.hat, sizesFs.mat, sizesFs.width⟩ rfl alignedFs charGt49 lsCharGt49 lsCs49_total (by decide) parUn_norm
    (R := 4) (R₀ := 2) (splits_of (by decide) (by decide)) (by decide) (mkWit_ok ring49 parUn (wl := 1) _ rfl) rfl
    (by
      have : ∀ i < 4, ccsRow ccsFs (([0] ++ [1]) ++ (mkWit ring49 parUn 1 [0, 0, 0, 0]).wCcs) i = 0 := by decide +kernel
      exact this)
    (by
      intro c hc i
      simp only [mkWit, List.mem_cons, List.not_mem_nil, or_false, or_self] at hc
      subst hc
      exact ⟨0, by simp, by simp⟩)
    pairsFs_span ⟨[![⟨3, 5⟩]]⟩ rfl T s acc wAcc hT hacc hsh
  exact ⟨proof, st, w'', s', h1, h2, h3⟩

/-- Two steps, with the commitments `3 + 5X` and `1`. -/
example {σ : Type} (T : Transcript F49 C49 σ) (s : σ) (hT : ∀ s n, (T.bytes s n).1.length = n) (acc : LCCCS C49) (wAcc : Witness C49 C49)
    (hacc : LcccsHolds ring49 parUn ccsFs schemeFs acc wAcc) (hsh : WitShort ring49 (reach 2 3) wAcc) :
    ∃ proofs accs acc' w' s', proofs.length = 2 ∧
      ivcVerify ring49 parUn cs49 T ccsFs ([⟨⟨[![⟨3, 5⟩]]⟩, [0]⟩, ⟨⟨[1]⟩, [0]⟩].zip proofs) s acc = .ok ((accs, acc'), s') ∧
      LcccsHolds ring49 parUn ccsFs schemeFs acc' w' ∧ WitShort ring49 (reach 2 3) w' := by
  have hin : ShortInput ring49 parUn ccsFs 2 [0] := by
    refine ⟨rfl, mkWit ring49 parUn 1 [0, 0, 0, 0], mkWit_ok ring49 parUn (wl := 1) _ rfl, ?_, ?_⟩
    · have : ∀ i < 4, ccsRow ccsFs (([0] ++ [1]) ++ (mkWit ring49 parUn 1 [0, 0, 0, 0]).wCcs) i = 0 := by decide +kernel
      exact this
    · intro c hc i
      simp only [mkWit, List.mem_cons, List.not_mem_nil, or_false, or_self] at hc
      subst hc
      exact ⟨0, by simp, by simp⟩
  refine C54_chain_unnoticed ring49 parUn cs49 ccsFs schemeFs parUn_ok ⟨sizesFs.sh, sizesFs.nl, sizesFs.hat, sizesFs.mat, sizesFs.width⟩ rfl
    alignedFs charGt49 lsCharGt49 lsCs49_total (by decide) parUn_norm (R := 4) (R₀ := 2) (splits_of (by decide) (by decide)) (by decide)
    pairsFs_span T hT [⟨⟨[![⟨3, 5⟩]]⟩, [0]⟩, ⟨⟨[1]⟩, [0]⟩] ?_ s acc wAcc hacc hsh
  intro cm hcm
  simp only [List.mem_cons, List.not_mem_nil, or_false] at hcm
  rcases hcm with rfl | rfl <;> exact ⟨rfl, hin⟩

/-- The step of `C54_step_long` with the pieces `(1, 6X)` and `(3 - 3X, -2 + 2X)`; the bound is `M = 6`. -/
example {σ : Type} (T : Transcript F49 C49 σ) (s : σ) (hT : ∀ s n, (T.bytes s n).1.length = n) :
    ∃ proof st w' s', nifsVerify ring49 par49 cs49 T s (acc49 ![⟨3, 1⟩] ![⟨1, 4⟩] ![⟨2, 0⟩] (wit49 ![⟨1, 0⟩] ![⟨0, 6⟩])) lsFresh proof ccs49
        = .ok (st, s') ∧ LcccsHolds ring49 par49 ccs49 scheme49 st w' ∧ WitShort ring49 (reach 2 2) w' := by
  have hcov : ∀ x : ZMod 7, 2 * x.valMinAbs.natAbs ≤ reach 2 2 := by decide
  obtain ⟨proof, st, w', s', h1, h2, h3, -⟩ := C54_step_unnoticed ring49 par49 cs49 T s ccs49 scheme49
    (acc49 ![⟨3, 1⟩] ![⟨1, 4⟩] ![⟨2, 0⟩] (wit49 ![⟨1, 0⟩] ![⟨0, 6⟩])) (wit49 ![⟨1, 0⟩] ![⟨0, 6⟩]) lsFresh (wit49 ![⟨0, 1⟩] ![⟨3, 3⟩])
    par49_ok sizes49 rfl lsAligned49 charGt49 lsCharGt49 hT lsCs49_total (M := 6) (fun _ _ _ _ _ _ _ => short7.2 (hcov _))
    (acc49_holds _ _ _ _ _)
    (fun c _ i => short7.2 (hcov _)) (mkWit_ok ring49 par49 (wl := 1) _ rfl) (commit_ok scheme49 _ (by simp [wit49, mkWit, scheme49])) rfl
    (by
      have : ∀ i < 2, ccsRow ccs49 ((lsFresh.x_ccs ++ [1]) ++ (wit49 ![⟨0, 1⟩] ![⟨3, 3⟩]).wCcs) i = 0 := by decide +kernel
      exact this) lsPieces (fun k => by cases k <;> rfl)
    (by
      refine ⟨rfl, fun k _ => by cases k <;> rfl, ?_⟩
      decide +kernel)
    (by
      intro k hk c hc i
      have hk : k < 1 := hk
      interval_cases k
      simp only [lsPieces, List.mem_cons, List.not_mem_nil, or_false] at hc
      refine short7.2 ?_
      rcases hc with rfl | rfl <;> revert i <;> decide)
    (fun c hc a => unLast c hc a) (fun c _ i => short7.2 (hcov _))
  exact ⟨proof, st, w', s', h1, h2, h3⟩

/-- Goldilocks with `K = 16`: a last piece with coefficients up to 29823 instead of 1. -/
example : NormLast (Example.ringRq SmallNorm.goldilocksData (by norm_num)) ⟨65536, 4, 2, 16⟩
    (packedSet (Example.ringRq SmallNorm.goldilocksData (by norm_num)).coeff) 59646 :=
  C54_last_bound_shipped.1 _ _ _ rq_goldilocks_X ⟨65536, 4, 2, 16⟩ (by decide) (by decide)

example : ∃ d r : ZMod pFrog, (12345678901234567890 : ZMod pFrog) = ((2 ^ 33 : Nat) : ZMod pFrog) * d + r ∧ Short (2 ^ 34) d ∧ Short (2 ^ 33) r :=
  frogL2_splits _

end Examples

end Verif.Props
