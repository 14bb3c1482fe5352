import Verif.Lemmas.PlusCmForge
import Verif.Lemmas.Tape
import Verif.Props.PlusCm
import Verif.Props.Sumcheck

/-!
# Property theorems: what the sum-checks of the commitment transformation enforce (C70)
-/

set_option linter.unusedSectionVars false
set_option linter.unusedSimpArgs false

namespace Verif.Props

open Finset Polynomial Verif Verif.Spec Verif.Plus

variable {F R σ : Type} {d : Nat}
variable [Field F] [CommRing R] [Algebra F R] [DecidableEq F] [DecidableEq R]

/-! ## Errors that cancel between the instances -/

/-- **C70** is false for two or more instances: the claims about the commitments `comh` of all instances are multiplied with the same powers of
the challenge, so only their sum is enforced. For any errors `E` (one vector per instance) whose sum is zero there is an accepted proof, with the commitments
of honest instances, whose statement has the commitment of the folded witness of instance `l` off by `E_l`. -/
theorem C70_errors_cancel (pr : PlusRing F R d) (T : Transcript F R σ) (s : σ) (A : Mat R) (n : Nat) (rg : Rg F R) (M : List (SpMat R))
    (h : CmHyps pr T A n rg M (·.f)) (E : List (List R)) (hEl : E.length = rg.instances.length) (hEr : ∀ e ∈ E, e.length = A.nrows)
    (hEs : ∀ i < A.nrows, (E.map fun e => e.getD i 0).sum = 0) :
    ∃ proof x s', cmVerify pr T s M proof = .ok (x, s') ∧ proof.dcom.fcoms = rg.instances.map (·.fcoms) ∧
      ∃ s0 s1 s2 sp, ∃ g : List (List R), g = (rg.instances.map fun inst => (List.range n).map (foldedEntry d s0 s1 s2 sp inst)) ∧
        x.cmG = List.zipWith (List.zipWith (· + ·)) (g.map (commit A)) E ∧ x.vo = g.map (evalPairs M x.ro) := by
  obtain ⟨dcom, s1, -, h2, h3, h4, h5, h6, h7, h8⟩ := C56_complete_partial pr T s n rg M h.n2 h.nv h.char h.count h.valid h.mats
  obtain ⟨proof, x, s', g1, g2, g3⟩ := cmTail_forge pr T s1 h.input (dcom := dcom) ⟨h6, h7, h8, by rw [h3, List.length_map],
    by
      intro l hl hl'
      have : dcom.evals[l] = evalsAt pr M dcom.out.r rg.instances[l] := by
        have e : dcom.evals[l] = dcom.evals.getD l ⟨[], [], [], []⟩ := by simp [List.getD_eq_getElem?_getD, hl']
        rw [e, h3]
        simp [List.getD_eq_getElem?_getD, hl]
      rw [this]
      exact ⟨rfl, rfl, rfl⟩, h4⟩ h5 E hEl hEr hEs
  exact ⟨proof, x, s', g2 s h2, by rw [g1, h4], g3⟩

/-- Two instances with one row of commitments: the first folded commitment is off by `1`, the second by `-1`. -/
example (T : Transcript (ZMod 17) Example.R17 σ) (hT : BytesOK T) (s : σ) :
    ∃ (proof : CmProof (ZMod 17) Example.R17) (x : ComX Example.R17) (s' : σ) (g0 g1 : List Example.R17),
    cmVerify Example.plus17 T s [N17] proof = .ok (x, s') ∧ x.vo = [g0, g1].map (evalPairs [N17] x.ro) ∧
    x.cmG = [(commit B17 g0).map (· + 1), (commit B17 g1).map (· - 1)] ∧ x.cmG ≠ [g0, g1].map (commit B17) := by
  obtain ⟨inst, h1, hf, h2, h3, h4⟩ := inst128
  obtain ⟨proof, x, s', g1, -, s0, s1, s2, sp, g, hg, hx, hv⟩ := C70_errors_cancel Example.plus17 T s B17 128 ⟨7, [inst, inst], dp17⟩ [N17]
    (hyps128 T hT inst _ h2 h3 (by rw [hf]; exact h4) (·.f) hf) [[1], [-1]] rfl (by simp [B17]) (by simp [B17])
  have hcm : ∀ v : List Example.R17, ∃ c, commit B17 v = [c] := fun v => ⟨_, rfl⟩
  subst hg
  refine ⟨proof, x, s', _, _, g1, hv, ?_⟩
  obtain ⟨c0, hc0⟩ := hcm ((List.range 128).map (foldedEntry 4 s0 s1 s2 sp inst))
  simp only [List.map_cons, List.map_nil, hc0, List.zipWith_cons_cons, List.zipWith_nil_left, List.zipWith_nil_right] at hx ⊢
  rw [hx]
  refine ⟨by simp [sub_eq_add_neg], ?_⟩
  intro h
  have h5 : c0 + 1 = c0 := by simpa using congrArg (fun l => (l.getD 0 []).getD 0 0) h
  have h6 : (1 : Example.R17) = 0 := by
    simp at h5
  exact absurd h6 (by decide)

/-! ## Soundness of one of the two sum-checks -/

/-- The claims about instance `l`: the evaluations at `r`, sent in the range check, of `tau`, `m_tau`, `f` (`j = 0, 1, 2`) and the
value `u` computed from the evaluations of the matrices of monomials (`j = 3`), for row `i = 0` the vector itself, for row `i + 1` its product with matrix `i`. -/
def cmClaimed (dcom : Dcom F R) (us : List (List R)) (l i j : Nat) : R :=
  let ev := dcom.evals.getD l ⟨[], [], [], []⟩
  match j with
  | 0 => algebraMap F R (ev.a.getD i 0)
  | 1 => ev.b.getD i 0
  | 2 => ev.c.getD i 0
  | _ => (us.getD l []).getD i 0

theorem claimOne_eq {m zi : Nat} {rc : R} {us : List (List R)} {tc0 tc1 : List R} {dcom : Dcom F R} {l : Nat} (hl : l < dcom.evals.length) {v : R}
    (h : claimOne m zi rc us tc0 tc1 (dcom.evals[l], l) = .ok v) :
    v = quadSum m rc l (cmClaimed dcom us l) + tc0.getD l 0 * rc ^ zi + tc1.getD l 0 * rc ^ (zi + 1) := by
  have hev : dcom.evals.getD l ⟨[], [], [], []⟩ = dcom.evals[l] := by simp [List.getD_eq_getElem?_getD, hl]
  have hidx : ∀ {α : Type} (dflt : α) {site : String} {l : List α} {i : Nat} {x : α}, idx site l i = .ok x → x = l.getD i dflt := by
    intro α dflt site l i x hx
    by_cases hi : i < l.length
    · rw [idx_getD dflt hi] at hx
      exact (Except.ok.inj hx).symm
    · unfold idx at hx
      rw [List.getElem?_eq_none (by omega)] at hx
      simp at hx
  unfold claimOne at h
  simp only at h
  obtain ⟨ul, h1, h⟩ := bind_eq_ok.1 h
  obtain ⟨qs, h2, h⟩ := bind_eq_ok.1 h
  obtain ⟨y0, h3, h⟩ := bind_eq_ok.1 h
  obtain ⟨y1, h4, h⟩ := bind_eq_ok.1 h
  rw [hidx 0 h3, hidx 0 h4] at h
  rw [← Except.ok.inj h]
  congr 2
  have hq : qs = (List.range (1 + m)).map fun i => ∑ j ∈ range 4, cmClaimed dcom us l i j * rc ^ (l * (4 + 4 * m) + 4 * i + j) := by
    rw [mapRes_eq_ok_iff] at h2
    have hlen := h2.length_eq
    apply List.ext_getElem
    · rw [← hlen, List.length_map]
    · intro i hi1 hi2
      have hi : i < 1 + m := by simpa using hi2
      have := h2.get (i := i) (by simpa using hi) hi1
      simp only [List.get_eq_getElem, List.getElem_range] at this
      obtain ⟨a, ha, this⟩ := bind_eq_ok.1 this
      obtain ⟨b, hb, this⟩ := bind_eq_ok.1 this
      obtain ⟨c, hc, this⟩ := bind_eq_ok.1 this
      obtain ⟨u, hu, this⟩ := bind_eq_ok.1 this
      rw [← Except.ok.inj this, hidx 0 ha, hidx 0 hb, hidx 0 hc, hidx 0 hu, hidx [] h1, List.getElem_map, List.getElem_range,
        sum_range_succ, sum_range_succ, sum_range_succ, sum_range_succ, sum_range_zero]
      unfold claimQuad cmClaimed
      simp only [hev]
      ring
  rw [hq, sum_map_range']
  rfl

/-- The false claims of the sum-check: a claimed evaluation at `r` is wrong, or the sum over all instances of the claimed inner products
with one of the `t(z)` is. -/
def CmFalse (M : List (SpMat R)) (dcom : Dcom F R) (us : List (List R)) (tc0 tc1 tz0 tz1 : List R) (qs : List (Quad (List R))) : Prop :=
  (∃ l < qs.length, ∃ i < 1 + M.length, ∃ j < 4,
    cmClaimed dcom us l i j ≠ mle (rowFn M i ((quadAt qs l).comp j)) (dcom.out.r.map (algebraMap F R))) ∨
  (∑ l ∈ range qs.length, tc0.getD l 0 ≠ ∑ l ∈ range qs.length, inner (2 ^ dcom.out.nvars) (quadAt qs l).a tz0) ∨
  (∑ l ∈ range qs.length, tc1.getD l 0 ≠ ∑ l ∈ range qs.length, inner (2 ^ dcom.out.nvars) (quadAt qs l).a tz1)

/-- The verifier accepts the tape `w` of challenges (first the challenge that combines the claims, then the point), where the prover
answers with the strategy `P` and then sends the evaluations of the vectors `qs` at the point. -/
def CmAccepted (M : List (SpMat R)) (dcom : Dcom F R) (us : List (List R)) (tc0 tc1 tz0 tz1 : List R) (qs : List (Quad (List R)))
    (P : List F → List R) (w : List F) : Prop :=
  ∃ ro s', cmVerifySumcheck (coinT F R) w dcom qs.length M.length us tc0 tc1 tz0 tz1
    (strategyProof (fun v => P (w.take 1 ++ v)) (w.drop 1)) (qs.map (evalsQ M ((w.drop 1).map (algebraMap F R)))) = .ok (ro, s')

/-- Coefficients of the difference between the claim and the true sum, as a polynomial in the combining challenge. -/
def cmCoeff (L m : Nat) (D : Nat → Nat → Nat → R) (e0 e1 : R) (k : Nat) : R :=
  if k < L * (4 + 4 * m) then D (k / (4 + 4 * m)) (k % (4 + 4 * m) / 4) (k % 4)
  else if k = L * (4 + 4 * m) then e0 else e1

theorem cmCoeff_at (L m : Nat) (D : Nat → Nat → Nat → R) (e0 e1 : R) {l i j : Nat} (hl : l < L) (hi : i < 1 + m) (hj : j < 4) :
    cmCoeff L m D e0 e1 (l * (4 + 4 * m) + 4 * i + j) = D l i j := by
  have h1 : 4 * i + j < 4 + 4 * m := by omega
  have h2 : l * (4 + 4 * m) + (4 * i + j) < L * (4 + 4 * m) := by
    have : (l + 1) * (4 + 4 * m) ≤ L * (4 + 4 * m) := Nat.mul_le_mul_right _ hl
    rw [Nat.succ_mul] at this
    omega
  have h3 : (l * (4 + 4 * m) + (4 * i + j)) / (4 + 4 * m) = l := by
    rw [add_comm, Nat.add_mul_div_right _ _ (by omega), Nat.div_eq_of_lt h1, zero_add]
  have h4 : (l * (4 + 4 * m) + (4 * i + j)) % (4 + 4 * m) = 4 * i + j := by
    rw [add_comm, Nat.add_mul_mod_self_right, Nat.mod_eq_of_lt h1]
  have h5 : (l * (4 + 4 * m) + (4 * i + j)) % 4 = j := by
    rw [show l * (4 + 4 * m) + (4 * i + j) = j + 4 * (l * (1 + m) + i) by ring, Nat.add_mul_mod_self_left, Nat.mod_eq_of_lt hj]
  unfold cmCoeff
  rw [add_assoc, if_pos h2, h3, h4, h5, show (4 * i + j) / 4 = i by omega]

theorem cmCoeff_sum (L m : Nat) (D : Nat → Nat → Nat → R) (e0 e1 x : R) :
    ∑ k ∈ range (L * (4 + 4 * m) + 2), cmCoeff L m D e0 e1 k * x ^ k
      = ∑ l ∈ range L, quadSum m x l (D l) + e0 * x ^ (L * (4 + 4 * m)) + e1 * x ^ (L * (4 + 4 * m) + 1) := by
  rw [sum_range_succ, sum_range_succ, Plus.sum_split]
  congr 1
  · congr 1
    · apply sum_congr rfl
      intro l hl
      rw [show 4 + 4 * m = (1 + m) * 4 by ring, Plus.sum_split]
      unfold quadSum
      apply sum_congr rfl
      intro i hi
      apply sum_congr rfl
      intro j hj
      rw [show (1 + m) * 4 = 4 + 4 * m by ring, show l * (4 + 4 * m) + (i * 4 + j) = l * (4 + 4 * m) + 4 * i + j by ring,
        cmCoeff_at L m D e0 e1 (mem_range.1 hl) (mem_range.1 hi) (mem_range.1 hj)]
    · unfold cmCoeff
      rw [if_neg (by omega), if_pos rfl]
  · unfold cmCoeff
    rw [if_neg (by omega), if_neg (by omega)]

theorem cnt_powers_alg [Fintype F] (k : Nat) (a : Nat → R) (h : ∃ i < k + 1, a i ≠ 0) :
    cnt 1 (fun l : List F => ∑ i ∈ range (k + 1), a i * (algebraMap F R (l.getD 0 0)) ^ i = 0) ≤ k := by
  obtain ⟨i, hi, hai⟩ := h
  obtain ⟨φ, hφ⟩ : ∃ φ : Module.Dual F R, φ (a i) ≠ 0 := by
    by_contra hcon
    push Not at hcon
    exact hai ((Module.forall_dual_apply_eq_zero_iff F _).1 hcon)
  refine le_trans (cnt_mono fun l _ hl => ?_) (cnt_powers k (fun i => φ (a i)) ⟨i, hi, hφ⟩)
  have := congrArg φ hl
  rw [map_sum, map_zero] at this
  refine Eq.trans (sum_congr rfl fun j _ => ?_) this
  rw [← map_pow, mul_comm (a j), ← Algebra.smul_def, map_smul, smul_eq_mul, mul_comm]

/-- The polynomial whose sum is claimed. -/
noncomputable def cmPoly (M : List (SpMat R)) (r : List R) (tz0 tz1 : List R) (qs : List (Quad (List R))) (rc : R) (x : List R) : R :=
  cmValue qs.length M.length rc (eqPoly r x) (fun l i j => mle (rowFn M i ((quadAt qs l).comp j)) x)
    (mle (fun b => tz0.getD b 0) x) (mle (fun b => tz1.getD b 0) x)

theorem cmPoly_deg (nv : Nat) (M : List (SpMat R)) (r : List R) (hr : r.length = nv) (tz0 tz1 : List R) (qs : List (Quad (List R))) (rc : R) :
    PartialDeg nv 2 (cmPoly M r tz0 tz1 qs rc) := by
  unfold cmPoly cmValue
  have heq := partialDeg_eqPoly r
  rw [hr] at heq
  refine Spec.PartialDeg.sum _ fun l _ => Spec.PartialDeg.add (Spec.PartialDeg.add ?_ ?_) ?_
  · refine Spec.PartialDeg.mul (d := 1) (e := 1) heq ?_
    unfold quadSum
    refine Spec.PartialDeg.sum _ fun i _ => Spec.PartialDeg.sum _ fun j _ => ?_
    exact Spec.PartialDeg.mul (d := 1) (e := 0) (partialDeg_mle _ _) (partialDeg_const _ _ _)
  · exact Spec.PartialDeg.mul (d := 2) (e := 0) (Spec.PartialDeg.mul (d := 1) (e := 1) (partialDeg_mle _ _) (partialDeg_mle _ _))
      (partialDeg_const _ _ _)
  · exact Spec.PartialDeg.mul (d := 2) (e := 0) (Spec.PartialDeg.mul (d := 1) (e := 1) (partialDeg_mle _ _) (partialDeg_mle _ _))
      (partialDeg_const _ _ _)

theorem cmPoly_sum (nv : Nat) (M : List (SpMat R)) (r : List R) (hr : r.length = nv) (tz0 tz1 : List R) (qs : List (Quad (List R))) (rc : R) :
    ∑ b ∈ range (2 ^ nv), cmPoly M r tz0 tz1 qs rc (boolPoint nv b)
      = cmClaim qs.length M.length rc (fun l i j => mle (rowFn M i ((quadAt qs l).comp j)) r)
        (fun l => inner (2 ^ nv) (quadAt qs l).a tz0) (fun l => inner (2 ^ nv) (quadAt qs l).a tz1) := by
  unfold cmPoly cmValue cmClaim
  rw [sum_comm]
  apply sum_congr rfl
  intro l _
  rw [sum_add_distrib, sum_add_distrib]
  have e2 : ∀ (f : Nat → R) b, b ∈ range (2 ^ nv) → mle f (boolPoint nv b) = f b := fun f b hb => mle_boolPoint f (mem_range.1 hb)
  have ht : ∀ (t : List R) (e : Nat), ∑ b ∈ range (2 ^ nv), mle (rowFn M 0 ((quadAt qs l).comp 0)) (boolPoint nv b)
      * mle (fun b => t.getD b 0) (boolPoint nv b) * rc ^ e = inner (2 ^ nv) (quadAt qs l).a t * rc ^ e := by
    intro t e
    rw [← sum_mul]
    congr 1
    apply sum_congr rfl
    intro b hb
    rw [e2 _ b hb, e2 _ b hb]
    rfl
  rw [ht, ht]
  congr 2
  unfold quadSum
  simp only [mul_sum]
  rw [sum_comm]
  apply sum_congr rfl
  intro i hi
  rw [sum_comm]
  apply sum_congr rfl
  intro j _
  rw [show mle (rowFn M i ((quadAt qs l).comp j)) r
    = ∑ b ∈ range (2 ^ r.length), rowFn M i ((quadAt qs l).comp j) b * eqWeight r b from rfl, sum_mul, hr]
  apply sum_congr rfl
  intro b hb
  rw [e2 _ b hb, eqPoly_comm _ _ (by rw [hr, boolPoint_length]), eqPoly_boolPoint _ _ (mem_range.1 hb) _ hr]
  ring

open Classical in
/-- **C70** (partial): soundness of one sum-check of the commitment transformation as an interactive protocol. If one of the claimed evaluations at `r`
is wrong, or the sum over all instances of the claimed inner products is, then for every prover strategy at most a fraction
`(L (4 + 4 m) + 1 + 2 nv) / |F|` of all challenge tapes is accepted together with the true evaluations of the vectors at the new point. Left out,
because it fails (`C70_errors_cancel`): that the inner products are right for every instance on its own. -/
theorem C70_sound_partial [Fintype F] (nv : Nat) (hn : 1 ≤ nv) (hc : CharGt F 2) (M : List (SpMat R)) (dcom : Dcom F R)
    (us : List (List R)) (tc0 tc1 tz0 tz1 : List R) (qs : List (Quad (List R))) (hnv : dcom.out.nvars = nv) (hr : dcom.out.r.length = nv)
    (hl : dcom.evals.length = qs.length) (h0 : tz0.length ≤ 2 ^ nv) (h1 : tz1.length ≤ 2 ^ nv)
    (hbad : CmFalse M dcom us tc0 tc1 tz0 tz1 qs) (P : List F → List R) :
    (univ.filter fun w : Fin (1 + nv) → F => CmAccepted M dcom us tc0 tc1 tz0 tz1 qs P (List.ofFn w)).card
      ≤ (qs.length * (4 + 4 * M.length) + 1 + nv * 2) * Fintype.card F ^ nv := by
  subst hnv
  set nv := dcom.out.nvars with hnv
  set m := M.length with hm
  set L := qs.length with hL
  set r : List R := dcom.out.r.map (algebraMap F R) with hrr
  have hrl : r.length = nv := by rw [hrr, List.length_map, hr]
  set D : Nat → Nat → Nat → R := fun l i j => cmClaimed dcom us l i j - mle (rowFn M i ((quadAt qs l).comp j)) r with hD
  set e0 : R := ∑ l ∈ range L, tc0.getD l 0 - ∑ l ∈ range L, inner (2 ^ nv) (quadAt qs l).a tz0 with he0
  set e1 : R := ∑ l ∈ range L, tc1.getD l 0 - ∑ l ∈ range L, inner (2 ^ nv) (quadAt qs l).a tz1 with he1
  have hex : ∃ k < L * (4 + 4 * m) + 1 + 1, cmCoeff L m D e0 e1 k ≠ 0 := by
    rcases hbad with ⟨l, hl', i, hi, j, hj, hne⟩ | hne | hne
    · refine ⟨l * (4 + 4 * m) + 4 * i + j, ?_, ?_⟩
      · have : (l + 1) * (4 + 4 * m) ≤ L * (4 + 4 * m) := Nat.mul_le_mul_right _ hl'
        rw [Nat.succ_mul] at this
        omega
      · rw [cmCoeff_at L m D e0 e1 hl' hi hj]
        exact sub_ne_zero.2 hne
    · refine ⟨L * (4 + 4 * m), by omega, ?_⟩
      unfold cmCoeff
      rw [if_neg (by omega), if_pos rfl]
      exact sub_ne_zero.2 hne
    · refine ⟨L * (4 + 4 * m) + 1, by omega, ?_⟩
      unfold cmCoeff
      rw [if_neg (by omega), if_neg (by omega)]
      exact sub_ne_zero.2 hne
  have hcnt := cnt_append_le (F := F) 1 nv (L * (4 + 4 * m) + 1) (nv * 2) le_rfl hn
    (CmAccepted M dcom us tc0 tc1 tz0 tz1 qs P) _ (by simpa using cnt_powers_alg (F := F) (L * (4 + 4 * m) + 1) (cmCoeff L m D e0 e1) hex) ?_
  · rw [show 1 + nv - 1 = nv by omega] at hcnt
    exact hcnt
  intro u hu hgood
  obtain ⟨rc, rfl⟩ := List.length_eq_one_iff.1 hu
  set c : R := cmClaim L m (algebraMap F R rc) (cmClaimed dcom us) (fun l => tc0.getD l 0) (fun l => tc1.getD l 0) with hcc
  have hfalse : c ≠ ∑ b ∈ range (2 ^ nv), cmPoly M r tz0 tz1 qs (algebraMap F R rc) (boolPoint nv b) := by
    rw [cmPoly_sum nv M r hrl]
    intro h
    apply hgood
    have h' := sub_eq_zero.2 h
    rw [hcc] at h'
    unfold cmClaim at h'
    rw [← sum_sub_distrib] at h'
    refine (cmCoeff_sum L m D e0 e1 _).trans (Eq.trans ?_ h')
    have key : ∀ l, quadSum m (algebraMap F R rc) l (D l) = quadSum m (algebraMap F R rc) l (cmClaimed dcom us l)
        - quadSum m (algebraMap F R rc) l (fun i j => mle (rowFn M i ((quadAt qs l).comp j)) r) := by
      intro l
      unfold quadSum
      rw [← sum_sub_distrib]
      apply sum_congr rfl
      intro i _
      rw [← sum_sub_distrib]
      apply sum_congr rfl
      intro j _
      rw [hD]
      ring
    change ∑ l ∈ range L, quadSum m (algebraMap F R rc) l (D l) + e0 * (algebraMap F R rc) ^ _ + e1 * (algebraMap F R rc) ^ _ = _
    rw [he0, he1, ← sum_sub_distrib, ← sum_sub_distrib, sum_mul, sum_mul, ← sum_add_distrib, ← sum_add_distrib]
    apply sum_congr rfl
    intro l _
    rw [key]
    ring
  have hsound := C21_soundness (F := F) (R := R) nv 2 hn hc _ (cmPoly_deg nv M r hrl tz0 tz1 qs (algebraMap F R rc)) c hfalse
    (fun v => P ([rc] ++ v))
  have hsound' : cnt nv (fun v : List F => ∃ sc s', verifyAsSubprotocol (coinT F R) v nv 2 c
        (strategyProof (fun v => P ([rc] ++ v)) v) = .ok (sc, s')
        ∧ sc.expectedEvaluation = cmPoly M r tz0 tz1 qs (algebraMap F R rc) (sc.point.map (algebraMap F R)))
        ≤ nv * 2 * Fintype.card F ^ (nv - 1) := hsound
  refine le_trans (cnt_mono fun v hv h => ?_) hsound'
  obtain ⟨ro, s', h⟩ := h
  unfold cmVerifySumcheck at h
  have hch : (coinT F R).challenge ([rc] ++ v) = (rc, v) := rfl
  rw [hch] at h
  simp only [List.take_left' (l₁ := [rc]) (l₂ := v) rfl, List.drop_left' (l₁ := [rc]) (l₂ := v) rfl] at h
  obtain ⟨cs, hcs, h⟩ := bind_eq_ok.1 h
  obtain ⟨⟨sc, s2⟩, h3, h⟩ := bind_eq_ok.1 h
  have hcsum : cs.sum = c := by
    have hcs' : cs = (List.range dcom.evals.length).map fun l => quadSum m (algebraMap F R rc) l (cmClaimed dcom us l)
        + tc0.getD l 0 * (algebraMap F R rc) ^ (L * (4 + 4 * m)) + tc1.getD l 0 * (algebraMap F R rc) ^ (L * (4 + 4 * m) + 1) := by
      rw [mapRes_eq_ok_iff] at hcs
      have hlen := hcs.length_eq
      rw [List.length_zipIdx] at hlen
      apply List.ext_getElem
      · rw [← hlen, List.length_map, List.length_range]
      · intro l hl1 hl2
        have hl' : l < dcom.evals.length := by simpa using hl2
        have := hcs.get (i := l) (by simpa using hl') hl1
        simp only [List.get_eq_getElem, List.getElem_zipIdx, zero_add] at this
        rw [claimOne_eq hl' this, List.getElem_map, List.getElem_range]
    rw [hcs', sum_map_range', hl]
    rfl
  rw [hcsum] at h3
  have h4 : verifyAsSubprotocol (coinT F R) v nv 2 c (strategyProof (fun v => P ([rc] ++ v)) v) = .ok (sc, s2) := by
    unfold unwrapRes at h3
    split at h3
    · next h => rw [← hnv] at h; simpa using h.trans (by simpa using h3)
    · simp at h3
  have hpt := verify_coin_point hn c _ v hv sc s2 h4
  refine ⟨sc, s2, h4, ?_⟩
  simp only at h
  have hpl : (sc.point.map (algebraMap F R)).length = nv := by rw [List.length_map, hpt, hv]
  rw [evalVec_ok _ tz0 _ h0 hpl, bind_ok', evalVec_ok _ tz1 _ h1 hpl, bind_ok', eqEval_ok _ _ (by rw [hrl, hpl])] at h
  simp only [unwrapRes, bind_ok'] at h
  rw [mapRes_zipIdx _ _ (fun l => eqPoly r (sc.point.map (algebraMap F R))
      * quadSum m (algebraMap F R rc) l (fun i j => mle (rowFn M i ((quadAt qs l).comp j)) (sc.point.map (algebraMap F R)))
      + mle (rowFn M 0 ((quadAt qs l).comp 0)) (sc.point.map (algebraMap F R))
        * mle (fun i => tz0.getD i 0) (sc.point.map (algebraMap F R)) * (algebraMap F R rc) ^ (L * (4 + 4 * m))
      + mle (rowFn M 0 ((quadAt qs l).comp 0)) (sc.point.map (algebraMap F R))
        * mle (fun i => tz1.getD i 0) (sc.point.map (algebraMap F R)) * (algebraMap F R rc) ^ (L * (4 + 4 * m) + 1)) (by
    intro l hll
    have hl' : l < qs.length := by simpa using hll
    rw [List.getElem_map, hpt, show quadAt qs l = qs[l] by simp [quadAt, List.getD_eq_getElem?_getD, hl']]
    exact evalOne_ok M _ _ _ _ _ _ _ _), bind_ok', sum_map_range', List.length_map] at h
  split_ifs at h with h5
  rw [h5]
  rfl

open Classical in
/-- One instance with `tau = (1, 2)` and the claim that its inner product with `(1, 0)` is zero: at most `119` of the `289` tapes are accepted. -/
example (P : List (ZMod 17) → List Example.R17) :
    (univ.filter fun w : Fin (1 + 1) → ZMod 17 => CmAccepted [] ⟨[⟨[], [1], [0], [3]⟩], [], ⟨1, [0], [], [], []⟩, dp17⟩ [[0]] [0] [0] [1] []
      [⟨[1, 2], [], [3], []⟩] P (List.ofFn w)).card ≤ 119 := by
  have := C70_sound_partial (F := ZMod 17) (R := Example.R17) 1 le_rfl (fun m h1 h2 => charGt17 m h1 (by omega)) []
    ⟨[⟨[], [1], [0], [3]⟩], [], ⟨1, [0], [], [], []⟩, dp17⟩ [[0]] [0] [0] [1] [] [⟨[1, 2], [], [3], []⟩] rfl rfl rfl (by decide) (by decide)
    (.inr (.inl (by
      change ∑ l ∈ range 1, _ ≠ ∑ l ∈ range 1, _
      rw [sum_range_one, sum_range_one]
      unfold inner
      decide))) P
  rw [ZMod.card] at this
  simpa using this

end Verif.Props
