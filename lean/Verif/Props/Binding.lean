import Verif.Lemmas.Log
import Verif.Props.Linearization
import Verif.Props.Decomposition
import Verif.Props.Nifs
import Verif.Props.ExampleData

/-!
# C49: what the verifiers absorb, and in which order
-/

set_option linter.unusedSectionVars false
set_option linter.unusedSimpArgs false

namespace Verif.Props

open Finset Spec Verif

section Basic
variable {F R : Type} (o : Oracle F R) [Field F] [CommRing R] [Algebra F R] [DecidableEq F] [DecidableEq R]

/-- **C49**, sum-check: an accepted verification leaves exactly the messages and challenges in the record. -/
theorem C49_sumcheck_record (s s' : {l : List (Event F R) // Honest o l}) (n d : Nat) (c : R) (proof : List (List R))
    (sc : SubClaim F R) (h : verifyAsSubprotocol (recT o) s n d c proof = .ok (sc, s')) :
    sc.point.length = n ∧ s'.1 = s.1 ++ sumcheckLog n d proof sc.point := by
  by_cases hn : n = 0
  · rw [hn, verify_zero] at h; simp at h
  by_cases hl : n ≤ proof.length
  · rw [verify_eq _ _ _ _ hn _ _ hl, bind_eq_ok] at h
    obtain ⟨e, _, h⟩ := h
    simp only [Except.ok.injEq, Prod.mk.injEq] at h
    obtain ⟨rfl, rfl⟩ := h
    have hlen : (drawRun (recT o) ((recT o).absorb ((recT o).absorb s (n : R)) (d : R)) (proof.take n)).1.length = n := by
      rw [drawRun_length]; simp [hl]
    refine ⟨hlen, ?_⟩
    rw [recT_draw]
    simp only at hlen ⊢
    conv_lhs => rw [← roundsLog_take, List.take_take, hlen, Nat.min_self]
    unfold sumcheckLog
    rw [← roundsLog_take proof, hlen]
    simp [recT, sent]
  · rw [verify_short _ _ _ _ _ _ (by omega)] at h; simp at h

/-- **C49**, linearization. -/
theorem C49_linearization_record (s s' : {l : List (Event F R) // Honest o l}) (cm : CCCS R) (proof : LinProof R)
    (ccs : CCS R) (st : LCCCS R) (h : linVerify (recT o) s cm proof ccs = .ok (st, s')) :
    ∃ beta point, beta.length = ccs.s ∧ point.length = ccs.s ∧ st.r = point.map (algebraMap F R) ∧
      s'.1 = s.1 ++ linLog ccs proof beta point := by
  unfold linVerify squeezeBeta at h
  simp only [bind_eq_ok, Prod.exists] at h
  obtain ⟨sc, s2, h1, e, h2, cl, h3, h4⟩ := h
  split at h4
  · cases h4
  · simp only [Except.ok.injEq, Prod.mk.injEq] at h4
    obtain ⟨rfl, rfl⟩ := h4
    obtain ⟨h5, h6⟩ := C49_sumcheck_record o _ _ _ _ _ _ _ h1
    refine ⟨((recT o).challenges ccs.s (absorbLabel (recT o) s "beta_s")).1, sc.point, challenges_length _ _ _, h5, rfl, ?_⟩
    rw [recT_absorbSlice, recT_absorbSlice, h6, recT_drawn _ _ _ _ rfl]
    simp [linLog]

/-- **C49**, decomposition: every piece is absorbed. -/
theorem C49_decomposition_record (P : Params) (s s' : {l : List (Event F R) // Honest o l}) (cmi : LCCCS R)
    (proof : DecProof R) (l : List (LCCCS R)) (h : decVerify P (recT o) s cmi proof = .ok (l, s')) :
    s'.1 = s.1 ++ decLog proof := by
  rw [C31_verify_iff] at h
  obtain ⟨-, -, -, -, -, -, -, rfl⟩ := h
  unfold decLog
  generalize ((proof.xS.zip proof.yS).zip proof.uS).zip proof.vS = ps
  induction ps generalizing s with
  | nil => simp
  | cons p ps ih =>
    rw [List.foldl_cons, ih, recT_absorbSlice, recT_absorbSlice, recT_absorbSlice, recT_absorbSlice]
    simp

end Basic

section Ring
variable {Fp F C : Type} {N τ : Nat} [Field Fp] [Field F] [DecidableEq F] [Algebra Fp F] [CommRing C] [Algebra Fp C]
  (o : Oracle F (Fin N → F))

/-- **C49**, folding: all challenges come after everything they must depend on; the folding coefficients are decoded from
the recorded bytes. -/
theorem C49_folding_record (rd : RingData Fp F C N τ) (P : Params) (cs : ChallengeSet C)
    (s s' : {l : List (Event F (Fin N → F)) // Honest o l}) (cms : List (LCCCS (Fin N → F)))
    (proof : FoldProof (Fin N → F)) (ccs : CCS (Fin N → F)) (st : LCCCS (Fin N → F))
    (h : foldVerify rd P cs (recT o) s cms proof ccs = .ok (st, s')) :
    ∃ al ze mu be point bss, al.length = 2 * P.K ∧ ze.length = 2 * P.K ∧ mu.length = 2 * P.K - 1 ∧ be.length = ccs.s ∧
      point.length = ccs.s ∧ bss.length = 2 * P.K - 1 ∧ st.r = point.map (algebraMap F (Fin N → F)) ∧
      s'.1 = s.1 ++ foldLog P cs.bytesNeeded ccs proof al ze mu be point bss := by
  rw [foldVerify_iff] at h
  obtain ⟨-, ch, s1, sc, s2, eS, es, rhoC, rho, out, k1, k2, -, -, -, k6, -, k8⟩ := h
  unfold squeezeFold at k1
  simp only [bind_eq_ok, Except.ok.injEq, Prod.mk.injEq] at k1
  obtain ⟨n, hn, -, rfl⟩ := k1
  have hn' : n = 2 * P.K - 1 := by
    unfold usub at hn
    split at hn
    · simpa using hn.symm
    · cases hn
  obtain ⟨h5, h6⟩ := C49_sumcheck_record o _ _ _ _ _ _ _ k2
  unfold getRhos at k6
  simp only [bind_eq_ok, Except.ok.injEq, Prod.mk.injEq, Prod.exists] at k6
  obtain ⟨n', hn2, rl, s3, h7, -, rfl⟩ := k6
  have hn2' : n' = 2 * P.K - 1 := by
    unfold usub at hn2
    split at hn2
    · simpa using hn2.symm
    · cases hn2
  obtain ⟨bss, h8, -, h9⟩ := recT_short o cs _ _ _ _ h7
  generalize e1 : (recT o).challenges (2 * P.K) (absorbLabel (recT o) s "alpha_s") = A at *
  generalize e2 : (recT o).challenges (2 * P.K) (absorbLabel (recT o) A.2 "zeta_s") = Z at *
  generalize e3 : (recT o).challenges n (absorbLabel (recT o) Z.2 "mu_s") = U at *
  generalize e4 : (recT o).challenges ccs.s (absorbLabel (recT o) U.2 "beta_s") = B at *
  have d1 := recT_drawn o (2 * P.K) s "alpha_s" rfl
  have d2 := recT_drawn o (2 * P.K) A.2 "zeta_s" rfl
  have d3 := recT_drawn o n Z.2 "mu_s" rfl
  have d4 := recT_drawn o ccs.s U.2 "beta_s" rfl
  have l1 := challenges_length (recT o) (2 * P.K) (absorbLabel (recT o) s "alpha_s")
  have l2 := challenges_length (recT o) (2 * P.K) (absorbLabel (recT o) A.2 "zeta_s")
  have l3 := challenges_length (recT o) n (absorbLabel (recT o) Z.2 "mu_s")
  have l4 := challenges_length (recT o) ccs.s (absorbLabel (recT o) U.2 "beta_s")
  rw [e1] at d1 l1
  rw [e2] at d2 l2
  rw [e3] at d3 l3
  rw [e4] at d4 l4
  refine ⟨A.1, Z.1, U.1, B.1, sc.point, bss, l1, l2, l3.trans hn', l4, h5, h8.trans hn2', ?_, ?_⟩
  · unfold foldOutput at k8
    split at k8
    · cases k8
    · cases k8
      rfl
  · rw [h9, recT_label _ _ _ rfl, recT_absorbSlices, recT_absorbSlices, h6, d4, d3, d2, d1]
    simp [foldLog]

/-- **C49**, the folding scheme: after an accepted step the record is, in this order, the public input, the
linearization, both decompositions and the folding; all challenges are the oracle's answers on the record up to them
(by the type of the state). -/
theorem C49_step_record (rd : RingData Fp F C N τ) (P : Params) (cs : ChallengeSet C)
    (s s' : {l : List (Event F (Fin N → F)) // Honest o l}) (acc st : LCCCS (Fin N → F)) (cm : CCCS (Fin N → F))
    (proof : LFProof (Fin N → F)) (ccs : CCS (Fin N → F))
    (h : nifsVerify rd P cs (recT o) s acc cm proof ccs = .ok (st, s')) :
    ∃ beta point al ze mu be point' bss, beta.length = ccs.s ∧ point.length = ccs.s ∧ al.length = 2 * P.K ∧
      ze.length = 2 * P.K ∧ mu.length = 2 * P.K - 1 ∧ be.length = ccs.s ∧ point'.length = ccs.s ∧
      bss.length = 2 * P.K - 1 ∧ st.r = point'.map (algebraMap F (Fin N → F)) ∧
      s'.1 = s.1 ++ publicEv acc cm ++ linLog ccs proof.lin beta point ++ decLog proof.decL ++ decLog proof.decR
        ++ foldLog P cs.bytesNeeded ccs proof.fold al ze mu be point' bss ∧ Honest o s'.1 := by
  unfold nifsVerify at h
  simp only [bind_eq_ok, Prod.exists] at h
  obtain ⟨_, _, lin, s2, h1, l, s3, h2, r, s4, h3, h4⟩ := h
  obtain ⟨beta, point, a1, a2, -, a4⟩ := C49_linearization_record o _ _ _ _ _ _ h1
  have b1 := C49_decomposition_record o _ _ _ _ _ _ h2
  have b2 := C49_decomposition_record o _ _ _ _ _ _ h3
  obtain ⟨al, ze, mu, be, point', bss, c1, c2, c3, c4, c5, c6, c7, c8⟩ := C49_folding_record o _ _ _ _ _ _ _ _ _ h4
  refine ⟨beta, point, al, ze, mu, be, point', bss, a1, a2, c1, c2, c3, c4, c5, c6, c7, ?_, s'.2⟩
  rw [c8, b2, b1, a4]
  congr 4
  unfold absorbPublicInput publicEv
  simp only [recT_absorbSlice]
  have hx : ∀ (s : {l : List (Event F (Fin N → F)) // Honest o l}) x, ((recT o).absorb s x).1 = s.1 ++ sent [x] := fun _ _ => rfl
  rw [recT_label _ _ _ rfl, hx]
  simp only [recT_absorbSlice]
  rw [recT_label _ _ _ rfl]
  simp

end Ring

section Binding
variable {Fp F C : Type} {N τ : Nat} [Field Fp] [Field F] [DecidableEq F] [Algebra Fp F] [CommRing C] [Algebra Fp C]

/-- **C49**, binding: two accepted steps of the same shape that leave the transcript in the same record had the same
public input and the same proof, and return statements at the same point. -/
theorem C49_step_binding (o o' : Oracle F (Fin N → F)) (rd : RingData Fp F C N τ) (P : Params) (cs : ChallengeSet C)
    (s t : {l : List (Event F (Fin N → F)) // Honest o l}) (s' t' : {l : List (Event F (Fin N → F)) // Honest o' l})
    (hst : s.1 = s'.1) (acc st acc' st' : LCCCS (Fin N → F)) (cm cm' : CCCS (Fin N → F))
    (proof proof' : LFProof (Fin N → F)) (ccs : CCS (Fin N → F))
    (h : nifsVerify rd P cs (recT o) s acc cm proof ccs = .ok (st, t))
    (h' : nifsVerify rd P cs (recT o') s' acc' cm' proof' ccs = .ok (st', t'))
    (ha : accShape acc = accShape acc') (hc : cmShape cm = cmShape cm') (hp : proofShape proof = proofShape proof')
    (hL : DecPieces P.K proof.decL) (hR : DecPieces P.K proof.decR) (hl : proof.lin.sumcheck.length = ccs.s)
    (hf : proof.fold.sumcheck.length = ccs.s) (heq : t.1 = t'.1) :
    acc = acc' ∧ cm = cm' ∧ proof = proof' ∧ st.r = st'.r := by
  obtain ⟨b, q, al, ze, mu, be, pt, bss, a1, a2, a3, a4, a5, a6, a7, a8, a9, a10, -⟩ :=
    C49_step_record o _ _ _ _ _ _ _ _ _ _ h
  obtain ⟨b', q', al', ze', mu', be', pt', bss', c1, c2, c3, c4, c5, c6, c7, c8, c9, c10, -⟩ :=
    C49_step_record o' _ _ _ _ _ _ _ _ _ _ h'
  rw [a10, c10, hst] at heq
  simp only [proofShape, Prod.mk.injEq] at hp
  obtain ⟨p1, p2, p3, p4⟩ := hp
  simp only [List.append_assoc] at heq
  replace heq := List.append_cancel_left heq
  replace heq := public_inj _ _ _ _ _ _ ha hc heq
  obtain ⟨q0, q1, heq⟩ := heq
  subst q0 q1
  replace heq := lin_inj _ _ _ _ _ _ _ _ _ p1 hl a1 c1 a2 c2 heq
  obtain ⟨e1, q1, q2, heq⟩ := heq
  subst q1 q2
  replace heq := dec_inj P.K _ _ _ _ p2 hL heq
  obtain ⟨e2, heq⟩ := heq
  replace heq := dec_inj P.K _ _ _ _ p3 hR heq
  obtain ⟨e3, heq⟩ := heq
  obtain ⟨e4, rfl, rfl⟩ := fold_inj _ _ _ _ _ _ _ _ _ _ _ _ _ _ _ _ _ p4 hf (a3.trans c3.symm) (a4.trans c4.symm)
    (a5.trans c5.symm) (a6.trans c6.symm) a7 c7 heq
  cases proof; cases proof'
  simp only at e1 e2 e3 e4
  subst e1 e2 e3 e4
  exact ⟨rfl, rfl, rfl, a9.trans c9.symm⟩

end Binding

section Late
variable {F R : Type} (o : Oracle F R)

/-- **C49**, the folding coefficients come last: in an honest record that ends with byte requests, every answer is the
oracle's value on everything before, the earlier answers included. -/
theorem C49_rho_after_everything (pre : List (Event F R)) (nb : Nat) (bss : List (List UInt8))
    (h : Honest o (pre ++ bss.map (.bytes nb))) (i : Nat) (hi : i < bss.length) :
    bss[i] = o.byt (pre ++ (bss.take i).map (.bytes nb)) nb := by
  refine h.2 (pre ++ (bss.take i).map (.bytes nb)) nb bss[i] ((bss.drop (i + 1)).map (.bytes nb)) ?_
  have hb : bss = bss.take i ++ bss[i] :: bss.drop (i + 1) := by
    rw [← List.drop_eq_getElem_cons hi, List.take_append_drop]
  rw [List.append_assoc, ← List.map_cons (f := Event.bytes nb), ← List.map_append, ← hb]

end Late

/-! ## Examples -/

open Verif.Example

/-- An oracle whose challenges depend on the length of the record. -/
def oracle5 : Oracle (ZMod 5) C5 := ⟨fun l => (l.length : (ZMod 5)), fun l n => List.replicate n (UInt8.ofNat l.length)⟩

theorem oracle5_bytes (s : {l : List (Event (ZMod 5) C5) // Honest oracle5 l}) (n : Nat) :
    ((recT oracle5).bytes s n).1.length = n := by
  simp [recT, oracle5]

/-- The empty record. -/
def start5 : {l : List (Event (ZMod 5) C5) // Honest oracle5 l} := ⟨[], by constructor <;> simp⟩

/-- An honest step on the recording transcript, and the record it leaves. -/
example : ∃ st proof s', nifsVerify ring5 par5 cs5 (recT oracle5) start5
      (acc5 ![3, 3] ![1, 4] ![2, 0] (wit5 ![1, 2] ![4, 0])) fresh5 proof ccs5 = .ok (st, s') ∧
    ∃ (beta point al ze mu be point' : List (ZMod 5)) (bss : List (List UInt8)), bss.length = 3 ∧
      s'.1 = start5.1 ++ publicEv (acc5 ![3, 3] ![1, 4] ![2, 0] (wit5 ![1, 2] ![4, 0])) fresh5 ++ linLog ccs5 proof.lin beta point
        ++ decLog proof.decL ++ decLog proof.decR
        ++ foldLog par5 cs5.bytesNeeded ccs5 proof.fold al ze mu be point' bss := by
  obtain ⟨st, w', proof, s', h1, h2, -⟩ := C39_nifs_complete ring5 par5 cs5 (recT oracle5) start5 ccs5 scheme5 _ _ fresh5 _
    par5_ok sizes5 rfl aligned5 charGt5 charGt5d oracle5_bytes cs5_ok
    (acc5_holds ![3, 3] ![1, 4] ![2, 0] ![1, 2] ![4, 0]) (wit5_short _ _) fresh5_holds
  obtain ⟨beta, point, al, ze, mu, be, point', bss, -, -, -, -, -, -, -, k, -, k', -⟩ :=
    C49_step_record oracle5 _ _ _ _ _ _ _ _ _ _ h2
  exact ⟨st, proof, s', h2, beta, point, al, ze, mu, be, point', bss, k, k'⟩

example : labelValue "acc" = 97 * 256 ^ 2 + 99 * 256 + 99 := by decide

/-- Reordering is visible: absorbing the message after the challenge gives a different record. -/
example (m r : ℚ) : (roundsLog [[m]] [r] : List (Event ℚ ℚ)) ≠ [.squeeze r, .absorb m, .absorb r] := by
  simp [roundsLog, sent]

example (m m' r : ℚ) (t : List (Event ℚ ℚ)) (h : roundsLog [[m]] [r] ++ t = roundsLog [[m']] [r] ++ t) : m = m' := by
  have := (rounds_inj [[m]] [[m']] [r] [r] t t rfl rfl rfl h).1
  simpa using this

example (o : Oracle ℚ ℚ) (pre : List (Event ℚ ℚ)) (a b : List UInt8) (h : Honest o (pre ++ [.bytes 4 a, .bytes 4 b])) :
    b = o.byt (pre ++ [.bytes 4 a]) 4 :=
  C49_rho_after_everything o pre 4 [a, b] h 1 (by simp)

end Verif.Props
