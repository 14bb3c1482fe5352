import Verif.Spec.NifsExtractor
import Verif.Props.Extractor
import Verif.Props.NifsKnowledge

/-!
# Property theorems for the extractor of the folding scheme: C92
-/

set_option linter.unusedSectionVars false
set_option linter.unusedSimpArgs false
set_option linter.constructorNameAsVariable false

namespace Verif.Props

open Finset Spec Verif Verif.Poseidon Verif.NormGrowth Verif.SmallNorm Verif.Example

section Norm
variable {p : ℕ} [Fact p.Prime] {F C : Type} {N τ : ℕ} [Field F] [DecidableEq F] [CommRing C] [Algebra (ZMod p) F] [Algebra (ZMod p) C]

/-- The extractor of the folding scheme for fixed challenges `u` of linearization. -/
theorem nifs_extract [Fintype F] (rd : RingData (ZMod p) F C N τ) (P : Params) (hK : 1 ≤ P.K) (hb : 1 ≤ P.bSmall)
    (cs : ChallengeSet C) {red : ℕ → ℕ → ℤ} {s γ β : ℕ} (htab : Table rd red s γ) (hbd : Bounded rd cs s β) (hγ : 1 ≤ 4 * γ * β)
    (ccs : CCS (Fin N → F)) (scheme : Ajtai (Fin N → F)) (hS : SizesOK P ccs scheme)
    (ht : ccs.t = ccs.M.length) (hc : CharGt F (2 * P.bSmall))
    (acc : LCCCS (Fin N → F)) (hr : acc.r.length = ccs.s) (cm : CCCS (Fin N → F))
    (A : NifsProver F (Fin N → F)) (hA : ProverShape P ccs scheme τ A) (bound : Nat)
    (out : List F → (Fin (2 * P.K - 1) → Bytes cs.bytesNeeded) → Witness (Fin N → F) C)
    (ρ b0 : Fin (2 * P.K - 1) → Bytes cs.bytesNeeded) (u w0 : List F) (hul : u.length = ccs.s + ccs.s)
    (hw0 : w0.length = 6 * P.K - 1 + ccs.s + ccs.s)
    (h0 : Forked cs (fun ρ => NifsSucceedsWith rd P cs ccs scheme acc cm bound u w0 (A.proof ccs.s (6 * P.K - 1 + ccs.s) u w0) ρ
      (out w0 ρ)) ρ b0) :
    ∃ (lin : LCCCS (Fin N → F)) (v : List F),
      linVerify (coinT F (Fin N → F)) u cm ⟨strategyProof (fun v => A.linMsg (u.take ccs.s ++ v))
        (u.drop ccs.s), A.linV u, A.linU u⟩ ccs = .ok (lin, v) ∧
      ((∃ wAcc wit : Witness (Fin N → F) C,
          wAcc.fCoeff = recombine P cs ρ b0 (fun ρ => (out w0 ρ).fCoeff) 0 ∧
          wit.fCoeff = recombine P cs ρ b0 (fun ρ => (out w0 ρ).fCoeff) P.K ∧
          LcccsHolds rd P ccs scheme acc wAcc ∧ WitBelow rd (P.bSmall ^ P.K) wAcc ∧
          LcccsHolds rd P ccs scheme lin wit ∧ WitBelow rd (P.bSmall ^ (P.K - 1) * lastBound P (γ * β) bound) wit) ∨
        ∃ Z : Finset (Fin (6 * P.K - 1 + ccs.s + ccs.s) → F),
          Z.card ≤ (ccs.s + max τ ccs.M.length + ccs.s * (2 * P.bSmall)) * Fintype.card F ^ (6 * P.K - 1 + ccs.s + ccs.s - 1) ∧
          ∀ x ∉ Z, ∀ w, w = List.ofFn x → ∀ b,
            Forked cs (fun ρ => NifsSucceedsWith rd P cs ccs scheme acc cm bound u w (A.proof ccs.s (6 * P.K - 1 + ccs.s) u w) ρ
              (out w ρ)) ρ b →
            ∃ k < 2 * P.K, KernelVec rd scheme (4 * γ * β * bound) (collide cs ρ b0 b
              (out w0 ρ).fCoeff (fun i => (out w0 (Function.update ρ i (b0 i))).fCoeff)
              (out w ρ).fCoeff (fun i => (out w (Function.update ρ i (b i))).fCoeff) k)) := by
  have h00 := h0
  obtain ⟨⟨st0, t0, q0, q1, -⟩, -⟩ := h00
  rw [nifs_tape rd P cs _ _ _ acc cm _ ccs hul] at q0
  obtain ⟨-, lin, v, l, r, h1, h2, h3, -⟩ := q0
  refine ⟨lin, v, h1, ?_⟩
  have hlr : lin.r.length = ccs.s := by
    rw [(lin_out cm ccs hS.sh.spos A _ hul lin v h1).2.2.2.2, List.length_map, List.length_drop, hul]
    omega
  obtain ⟨l1, l2⟩ := dec_shape P ccs scheme acc _ l (hA.l _) h2
  obtain ⟨r1, r2⟩ := dec_shape P ccs scheme lin _ r (hA.r _) h3
  have hall : ∀ st ∈ l ++ r, st.r.length = ccs.s ∧ st.v.length = τ ∧ st.u.length = ccs.M.length ∧ st.x_w.length = ccs.l ∧
      st.cm.val.length = scheme.matrix.vals.length := by
    intro st hst
    rcases List.mem_append.1 hst with h | h
    · obtain ⟨g1, g2⟩ := l2 st h
      exact ⟨by rw [g1, hr], g2⟩
    · obtain ⟨g1, g2⟩ := r2 st h
      exact ⟨by rw [g1, hlr], g2⟩
  have hsh : ∀ w, FoldShape P ccs scheme (l ++ r) (A.eta u w) := fun w =>
    ⟨by rw [List.length_append]; omega, fun st h => (hall st h).2.2.2.2, fun st h => (hall st h).2.2.2.1, hA.etas _ w, hA.eta _ w⟩
  have hsucc : ∀ w ρ, NifsSucceedsWith rd P cs ccs scheme acc cm bound u w (A.proof ccs.s (6 * P.K - 1 + ccs.s) u w) ρ (out w ρ) →
      SucceedsWith rd P cs ccs scheme (l ++ r) bound w (tapeProof P ccs.s (A.msg u) (A.theta u) (A.eta u) w) ρ (out w ρ) := by
    rintro w ρ ⟨st, t, g1, g2⟩
    rw [nifs_tape rd P cs _ _ _ acc cm _ ccs hul] at g1
    obtain ⟨-, lin', v', l', r', k1, k2, k3, k4⟩ := g1
    have e1 := h1.symm.trans k1
    cases e1
    have e2 := h2.symm.trans k2
    cases e2
    have e3 := h3.symm.trans k3
    cases e3
    exact ⟨st, t, k4, g2⟩
  have hfork : ∀ w b, Forked cs (fun ρ => NifsSucceedsWith rd P cs ccs scheme acc cm bound u w (A.proof ccs.s (6 * P.K - 1 + ccs.s) u w) ρ
        (out w ρ)) ρ b → Forked cs (fun ρ => SucceedsWith rd P cs ccs scheme (l ++ r) bound w
        (tapeProof P ccs.s (A.msg u) (A.theta u) (A.eta u) w) ρ (out w ρ)) ρ b :=
    fun w b h => ⟨hsucc w _ h.1, fun i => ⟨(h.2 i).1, hsucc w _ (h.2 i).2⟩⟩
  rcases C91_extractor rd P hK hb cs htab hbd hγ ccs scheme hS ht hc (l ++ r) (fun st h => (hall st h).1)
      (fun st h => (hall st h).2.1) (fun st h => (hall st h).2.2.1) (A.msg u) (A.theta u) (A.eta u)
      hsh bound out ρ b0 w0 hw0 (hfork w0 b0 h0) with ⟨ws, w1, w2⟩ | ⟨Z, hZ, h⟩
  swap
  · exact Or.inr ⟨Z, hZ, fun x hx w hw b hf => h x hx w hw b (hfork w b hf)⟩
  left
  have hdl := hA.l u
  have hdr := hA.r u
  obtain ⟨-, wAcc, a1, a2⟩ := C89_recompose rd P hK _ _ _ ccs scheme hS acc _ l h2 hdl.xs hdl.ys hdl.us hdl.vs (ws.take P.K)
    (by rw [List.length_take]; omega) (by
      intro k st wit g1 g2
      rw [List.getElem?_take] at g2
      split at g2
      · rename_i hk
        exact (w2 k st wit (by rw [List.getElem?_append_left (by omega)]; exact g1) g2).2.1
      · cases g2)
  obtain ⟨-, wit, b1, b2⟩ := C89_recompose rd P hK _ _ _ ccs scheme hS lin _ r h3 hdr.xs hdr.ys hdr.us hdr.vs (ws.drop P.K)
    (by rw [List.length_drop]; omega) (by
      intro k st wit g1 g2
      rw [List.getElem?_drop] at g2
      exact (w2 (P.K + k) st wit (by rw [List.getElem?_append_right (by omega), l1, Nat.add_sub_cancel_left]; exact g1) g2).2.1)
  have hvec : ∀ k (hk : k < 2 * P.K), ws[k]? = some (ws[k]'(by omega)) ∧ (ws[k]'(by omega)).fCoeff = extract cs ρ b0 (out w0 ρ).fCoeff
      (fun i => (out w0 (Function.update ρ i (b0 i))).fCoeff) k := by
    intro k hk
    have e : ws[k]? = some (ws[k]'(by omega)) := List.getElem?_eq_getElem (by omega)
    exact ⟨e, (w2 k _ _ (List.getElem?_eq_getElem (by rw [List.length_append]; omega)) e).1⟩
  have hol : (out w0 ρ).fCoeff.length = (ccs.n - ccs.l - 1) * P.L := q1.witOK.flen
  refine ⟨wAcc, wit, ?_, ?_, a1, ?_, b1, ?_⟩
  · unfold recombine
    apply ext_getD a1.witOK.flen (by rw [List.length_map, List.length_range, hol])
    intro j hj
    rw [a2 j, getD_range _ _ _ (by rw [hol]; exact hj)]
    apply sum_congr rfl
    intro k hk
    have hk := mem_range.1 hk
    obtain ⟨e1, e2⟩ := hvec k (by omega)
    rw [List.getD_eq_getElem?_getD (l := ws.take P.K), List.getElem?_take_of_lt hk, e1, Option.getD_some, e2, Nat.zero_add]
  · unfold recombine
    apply ext_getD b1.witOK.flen (by rw [List.length_map, List.length_range, hol])
    intro j hj
    rw [b2 j, getD_range _ _ _ (by rw [hol]; exact hj)]
    apply sum_congr rfl
    intro k hk
    have hk := mem_range.1 hk
    obtain ⟨e1, e2⟩ := hvec (P.K + k) (by omega)
    rw [List.getD_eq_getElem?_getD (l := ws.drop P.K), List.getElem?_drop, e1, Option.getD_some, e2]
  · have := C89_norm rd P hK hb P.bSmall (ws.take P.K) (by rw [List.length_take]; omega) (by
      intro k w hk g2
      rw [List.getElem?_take_of_lt (by omega)] at g2
      exact (w2 k _ w (List.getElem?_eq_getElem (by rw [List.length_append]; omega)) g2).2.2.2.1 (by omega)) (by
      intro w g2
      rw [List.getElem?_take_of_lt (by omega)] at g2
      exact (w2 _ _ w (List.getElem?_eq_getElem (by rw [List.length_append]; omega)) g2).2.2.2.1 (by omega)) hb wAcc a2
    rwa [← pow_succ, Nat.sub_add_cancel hK] at this
  · refine C89_norm rd P hK hb (lastBound P (γ * β) bound) (ws.drop P.K) (by rw [List.length_drop]; omega) (by
      intro k w hk g2
      rw [List.getElem?_drop] at g2
      exact (w2 _ _ w (List.getElem?_eq_getElem (by rw [List.length_append]; omega)) g2).2.2.2.1 (by omega)) (by
      intro w g2
      rw [List.getElem?_drop] at g2
      exact below_of_short (w2 _ _ w (List.getElem?_eq_getElem (by rw [List.length_append]; omega)) g2).2.2.2.2) (by
      unfold lastBound; omega) wit b2

/-- **C92**: the extractor of the folding scheme. Take a prover that answers the verifier's random challenges (`u` in linearization,
`w` and the bytes `ρ` in folding) and in the end outputs a witness of the new accumulator with coefficients at most `bound / 2`.
If it succeeds for `u0`, `w0`, `ρ0`, and still if any one of the folding challenges is replaced by `b0 i`, then what the extractor
recombines from its outputs is a witness of the old accumulator, and a witness of the fresh statement with which the constraint
system is satisfied, both of them short, with two exceptions. Either it finds a short kernel vector of the commitment matrix whenever the
prover also succeeds in this way for `u0`, `ρ0` and another `w`, outside of a small set of `w`. Or for any `u` outside of a small set,
and any `w`, `ρ` for which the prover succeeds in this way, it finds a short kernel vector as the difference of the two witnesses of
the fresh statement it recombines, or finds one whenever the prover also succeeds in this way for `u`, `ρ` and another `w'`
outside of a small set. Nothing is assumed about the commitment matrix. -/
theorem C92_extractor [Fintype F] (rd : RingData (ZMod p) F C N τ) (P : Params) (hK : 1 ≤ P.K) (hb : 1 ≤ P.bSmall)
    (cs : ChallengeSet C) {red : ℕ → ℕ → ℤ} {s γ β : ℕ} (htab : Table rd red s γ) (hbd : Bounded rd cs s β) (hγ : 1 ≤ 4 * γ * β)
    (ccs : CCS (Fin N → F)) (scheme : Ajtai (Fin N → F)) (hS : SizesOK P ccs scheme)
    (ht : ccs.t = ccs.M.length) (hc : CharGt F (2 * P.bSmall)) (hd : CharGt F (ccs.d + 1))
    (acc : LCCCS (Fin N → F)) (hr : acc.r.length = ccs.s) (cm : CCCS (Fin N → F))
    (A : NifsProver F (Fin N → F)) (hA : ProverShape P ccs scheme τ A) (bound : Nat)
    (out : List F → List F → (Fin (2 * P.K - 1) → Bytes cs.bytesNeeded) → Witness (Fin N → F) C)
    (S : List F → List F → (Fin (2 * P.K - 1) → Bytes cs.bytesNeeded) → Prop)
    (hSdef : S = fun u w ρ => NifsSucceedsWith rd P cs ccs scheme acc cm bound u w (A.proof ccs.s (6 * P.K - 1 + ccs.s) u w) ρ (out u w ρ))
    (ρ0 b0 : Fin (2 * P.K - 1) → Bytes cs.bytesNeeded) (u0 w0 : List F) (hu0 : u0.length = ccs.s + ccs.s)
    (hw0 : w0.length = 6 * P.K - 1 + ccs.s + ccs.s) (h0 : Forked cs (S u0 w0) ρ0 b0) :
    (∃ wAcc wit : Witness (Fin N → F) C,
      wAcc.fCoeff = recombine P cs ρ0 b0 (fun ρ => (out u0 w0 ρ).fCoeff) 0 ∧
      wit.fCoeff = recombine P cs ρ0 b0 (fun ρ => (out u0 w0 ρ).fCoeff) P.K ∧
      LcccsHolds rd P ccs scheme acc wAcc ∧ WitBelow rd (P.bSmall ^ P.K) wAcc ∧
      FreshBelow rd P ccs scheme cm (P.bSmall ^ (P.K - 1) * lastBound P (γ * β) bound) wit) ∨
    (∃ Z : Finset (Fin (6 * P.K - 1 + ccs.s + ccs.s) → F),
      Z.card ≤ (ccs.s + max τ ccs.M.length + ccs.s * (2 * P.bSmall)) * Fintype.card F ^ (6 * P.K - 1 + ccs.s + ccs.s - 1) ∧
      ∀ x ∉ Z, ∀ w, w = List.ofFn x → ∀ b, Forked cs (S u0 w) ρ0 b →
        ∃ k < 2 * P.K, KernelVec rd scheme (4 * γ * β * bound) (collide cs ρ0 b0 b
          (out u0 w0 ρ0).fCoeff (fun i => (out u0 w0 (Function.update ρ0 i (b0 i))).fCoeff)
          (out u0 w ρ0).fCoeff (fun i => (out u0 w (Function.update ρ0 i (b i))).fCoeff) k)) ∨
    ∃ Y : Finset (Fin (ccs.s + ccs.s) → F),
      Y.card ≤ (ccs.s + ccs.s * (ccs.d + 1)) * Fintype.card F ^ (ccs.s + ccs.s - 1) ∧
      ∀ y ∉ Y, ∀ u, u = List.ofFn y → ∀ w, w.length = 6 * P.K - 1 + ccs.s + ccs.s → ∀ ρ b, Forked cs (S u w) ρ b →
        KernelVec rd scheme (2 * (P.bSmall ^ (P.K - 1) * lastBound P (γ * β) bound))
          (diffVec (recombine P cs ρ b (fun ρ => (out u w ρ).fCoeff) P.K)
            (recombine P cs ρ0 b0 (fun ρ => (out u0 w0 ρ).fCoeff) P.K)) ∨
        ∃ Z : Finset (Fin (6 * P.K - 1 + ccs.s + ccs.s) → F),
          Z.card ≤ (ccs.s + max τ ccs.M.length + ccs.s * (2 * P.bSmall)) * Fintype.card F ^ (6 * P.K - 1 + ccs.s + ccs.s - 1) ∧
          ∀ x ∉ Z, ∀ w', w' = List.ofFn x → ∀ b', Forked cs (S u w') ρ b' →
            ∃ k < 2 * P.K, KernelVec rd scheme (4 * γ * β * bound) (collide cs ρ b b'
              (out u w ρ).fCoeff (fun i => (out u w (Function.update ρ i (b i))).fCoeff)
              (out u w' ρ).fCoeff (fun i => (out u w' (Function.update ρ i (b' i))).fCoeff) k) := by
  classical
  subst hSdef
  obtain ⟨lin0, v0, g1, ⟨wAcc, wit, g2, g3, g4, g5, g6, g7⟩ | hZ⟩ := nifs_extract rd P hK hb cs htab hbd hγ ccs scheme hS ht hc acc hr cm A
    hA bound (out u0) ρ0 b0 u0 w0 hu0 hw0 h0
  swap
  · exact Or.inr (Or.inl hZ)
  obtain ⟨q1, q2, q3, q4, q5⟩ := lin_out cm ccs hS.sh.spos A _ hu0 lin0 v0 g1
  by_cases hsat : CCSHolds ccs ((cm.x_ccs ++ [1]) ++ wit.wCcs)
  · exact Or.inl ⟨wAcc, wit, g2, g3, g4, g5,
      ⟨g6.witOK, by rw [← q1]; exact g6.cm, by rw [← q2]; exact g6.xlen, hsat, g7⟩⟩
  refine Or.inr (Or.inr ?_)
  have h53 := C53_linearization_sound cm ccs hS.sh hd _ hsat A.linMsg
  refine ⟨_, h53, ?_⟩
  rintro y hy u rfl w hw ρ b hf
  have hul : (List.ofFn y).length = ccs.s + ccs.s := by simp
  obtain ⟨lin, v, k1, ⟨wAcc', w', k2, k3, k4, k5, k6, k7⟩ | hZ⟩ := nifs_extract rd P hK hb cs htab hbd hγ ccs scheme hS ht hc acc hr cm A
    hA bound (out (List.ofFn y)) ρ b (List.ofFn y) w hul hw hf
  swap
  · exact Or.inr hZ
  left
  obtain ⟨o1, o2, o3, o4, o5⟩ := lin_out cm ccs hS.sh.spos A _ hul lin v k1
  rw [← k3, ← g3]
  have hl : w'.fCoeff.length = scheme.matrix.ncols := by rw [k6.witOK.flen, hS.width]
  have hl0 : wit.fCoeff.length = scheme.matrix.ncols := by rw [g6.witOK.flen, hS.width]
  have hzl : (diffVec w'.fCoeff wit.fCoeff).length = scheme.matrix.ncols := by
    unfold diffVec
    rw [List.length_map, List.length_range, hl]
  have hzj : ∀ j < scheme.matrix.ncols, (diffVec w'.fCoeff wit.fCoeff).getD j 0 = w'.fCoeff.getD j 0 - wit.fCoeff.getD j 0 := by
    intro j hj
    unfold diffVec
    rw [getD_range _ _ _ (by rw [hl]; exact hj)]
  have hne : w'.fCoeff ≠ wit.fCoeff := by
    intro heq
    apply hy
    rw [mem_filter]
    refine ⟨mem_univ _, _, lin, v, k1, rfl, ?_⟩
    have e := k6.evals.u
    rw [o4, o2, o3, o5, (witOK_evals rd P k6.witOK g6.witOK heq []).1] at e
    exact e
  obtain ⟨z1, z2⟩ := kernel_diff rd scheme w'.fCoeff wit.fCoeff _ hl hl0 hzl hne (by
      have e1 := k6.cm
      have e2 := g6.cm
      rw [k6.witOK.f] at e1
      rw [g6.witOK.f] at e2
      rw [e1, e2, o1, q1]) 1 isUnit_one (fun j hj => by rw [hzj j hj, one_mul])
  refine ⟨hzl, z1, z2, fun x hx i => ?_⟩
  obtain ⟨j, hj, rfl⟩ := List.getElem_of_mem hx
  have hj' := hzj j (by rw [← hzl]; exact hj)
  rw [List.getD_eq_getElem?_getD, List.getElem?_eq_getElem hj, Option.getD_some] at hj'
  rw [hj']
  obtain ⟨n, n1, n2⟩ := below_vec rd k7 j i
  obtain ⟨n', n1', n2'⟩ := below_vec rd g7 j i
  refine ⟨n - n', ?_, ?_⟩
  · have := Int.natAbs_sub_le n n'
    omega
  · rw [map_sub, Pi.sub_apply, n2, n2']
    push_cast
    ring

open Classical in
/-- **C92**: how often the extractor succeeds. Say that the challenges `u`, `w`, `ρ` are heavy if the prover succeeds, and for each of the
folding challenges there are more than `T` replacements with which it still does. Let `n` be the number of successful challenges
minus `(2K - 1) (D + T) / 256 ^ l` of all. The extractor takes two runs for the same `u0`, `ρ0`, two runs for the same `u`, `ρ`, and
replacements for each of the folding challenges in each of the four. The number of such choices where all four are heavy, and it
computes witnesses of the old accumulator and the fresh statement, or a short kernel vector, is at least
`n² (n² - 2 E n - E')` out of `|U|² |R|²` times as many, where `E` and `E'` are the errors of folding and of linearization. So with
success probability `ε` of the prover (after the loss), it is at least `ε² (ε² - 2 ε e - e')`. -/
theorem C92_count [Fintype F] (rd : RingData (ZMod p) F C N τ) (P : Params) (hK : 1 ≤ P.K) (hb : 1 ≤ P.bSmall)
    (cs : ChallengeSet C) {red : ℕ → ℕ → ℤ} {s γ β : ℕ} (htab : Table rd red s γ) (hbd : Bounded rd cs s β) (hγ : 1 ≤ 4 * γ * β)
    (ccs : CCS (Fin N → F)) (scheme : Ajtai (Fin N → F)) (hS : SizesOK P ccs scheme)
    (ht : ccs.t = ccs.M.length) (hc : CharGt F (2 * P.bSmall)) (hd : CharGt F (ccs.d + 1))
    (acc : LCCCS (Fin N → F)) (hr : acc.r.length = ccs.s) (cm : CCCS (Fin N → F))
    (A : NifsProver F (Fin N → F)) (hA : ProverShape P ccs scheme τ A) (bound D T : Nat)
    (hD : ∀ b : Bytes cs.bytesNeeded, (univ.filter fun b' => ¬ UnitPair cs b b').card ≤ D)
    (out : List F → List F → (Fin (2 * P.K - 1) → Bytes cs.bytesNeeded) → Witness (Fin N → F) C)
    (S : List F → List F → (Fin (2 * P.K - 1) → Bytes cs.bytesNeeded) → Prop)
    (hSdef : S = fun u w ρ => NifsSucceedsWith rd P cs ccs scheme acc cm bound u w (A.proof ccs.s (6 * P.K - 1 + ccs.s) u w) ρ (out u w ρ))
    (pick : List F → List F → (Fin (2 * P.K - 1) → Bytes cs.bytesNeeded) → Fin (2 * P.K - 1) → Bytes cs.bytesNeeded)
    (hpick : ∀ u w ρ, Heavy cs T (S u w) ρ → Forked cs (S u w) ρ (pick u w ρ)) (n U R W : Nat)
    (hU : U = Fintype.card F ^ (ccs.s + ccs.s)) (hR : R = (256 ^ cs.bytesNeeded) ^ (2 * P.K - 1))
    (hW : W = Fintype.card F ^ (6 * P.K - 1 + ccs.s + ccs.s))
    (hn : n = (univ.filter fun y : ((Fin (ccs.s + ccs.s) → F) × (Fin (6 * P.K - 1 + ccs.s + ccs.s) → F)) ×
          (Fin (2 * P.K - 1) → Bytes cs.bytesNeeded) => S (List.ofFn y.1.1) (List.ofFn y.1.2) y.2).card
      - (2 * P.K - 1) * ((D + T) * (U * W * (256 ^ cs.bytesNeeded) ^ (2 * P.K - 1 - 1)))) :
    n * n * (n * (n - 2 * ((ccs.s + max τ ccs.M.length + ccs.s * (2 * P.bSmall)) * Fintype.card F ^ (6 * P.K - 1 + ccs.s + ccs.s - 1))
          * (U * R))
        - (ccs.s + ccs.s * (ccs.d + 1)) * Fintype.card F ^ (ccs.s + ccs.s - 1) * (U * R) * (R * W * W)) ≤ (U * R) ^ 2 *
      (univ.filter fun q : ((Fin (ccs.s + ccs.s) → F) × (Fin (2 * P.K - 1) → Bytes cs.bytesNeeded) ×
            (Fin (6 * P.K - 1 + ccs.s + ccs.s) → F) × (Fin (6 * P.K - 1 + ccs.s + ccs.s) → F)) ×
          (Fin (ccs.s + ccs.s) → F) × (Fin (2 * P.K - 1) → Bytes cs.bytesNeeded) ×
            (Fin (6 * P.K - 1 + ccs.s + ccs.s) → F) × (Fin (6 * P.K - 1 + ccs.s + ccs.s) → F) =>
        let u0 := List.ofFn q.1.1
        let ρ0 := q.1.2.1
        let w0 := List.ofFn q.1.2.2.1
        let w0' := List.ofFn q.1.2.2.2
        let u := List.ofFn q.2.1
        let ρ := q.2.2.1
        let w := List.ofFn q.2.2.2.1
        let w' := List.ofFn q.2.2.2.2
        (Heavy cs T (S u0 w0) ρ0 ∧ Heavy cs T (S u0 w0') ρ0 ∧ Heavy cs T (S u w) ρ ∧ Heavy cs T (S u w') ρ) ∧
        ((∃ wAcc wit : Witness (Fin N → F) C,
          wAcc.fCoeff = recombine P cs ρ0 (pick u0 w0 ρ0) (fun ρ => (out u0 w0 ρ).fCoeff) 0 ∧
          wit.fCoeff = recombine P cs ρ0 (pick u0 w0 ρ0) (fun ρ => (out u0 w0 ρ).fCoeff) P.K ∧
          LcccsHolds rd P ccs scheme acc wAcc ∧ WitBelow rd (P.bSmall ^ P.K) wAcc ∧
          FreshBelow rd P ccs scheme cm (P.bSmall ^ (P.K - 1) * lastBound P (γ * β) bound) wit) ∨
        (∃ k < 2 * P.K, KernelVec rd scheme (4 * γ * β * bound) (collide cs ρ0 (pick u0 w0 ρ0) (pick u0 w0' ρ0)
          (out u0 w0 ρ0).fCoeff (fun i => (out u0 w0 (Function.update ρ0 i (pick u0 w0 ρ0 i))).fCoeff)
          (out u0 w0' ρ0).fCoeff (fun i => (out u0 w0' (Function.update ρ0 i (pick u0 w0' ρ0 i))).fCoeff) k)) ∨
        KernelVec rd scheme (2 * (P.bSmall ^ (P.K - 1) * lastBound P (γ * β) bound))
          (diffVec (recombine P cs ρ (pick u w ρ) (fun ρ => (out u w ρ).fCoeff) P.K)
            (recombine P cs ρ0 (pick u0 w0 ρ0) (fun ρ => (out u0 w0 ρ).fCoeff) P.K)) ∨
        ∃ k < 2 * P.K, KernelVec rd scheme (4 * γ * β * bound) (collide cs ρ (pick u w ρ) (pick u w' ρ)
          (out u w ρ).fCoeff (fun i => (out u w (Function.update ρ i (pick u w ρ i))).fCoeff)
          (out u w' ρ).fCoeff (fun i => (out u w' (Function.update ρ i (pick u w' ρ i))).fCoeff) k))).card := by
  have e1 : ∀ (n : Nat), Fintype.card (Fin n → F) = Fintype.card F ^ n := fun n => by rw [Fintype.card_fun, Fintype.card_fin]
  have e2 : Fintype.card (Fin (2 * P.K - 1) → Bytes cs.bytesNeeded) = R := by
    rw [hR, ← card_bytes, Fintype.card_fun, Fintype.card_fin]
  have hfc := fork_count (fun (y : (Fin (ccs.s + ccs.s) → F) × (Fin (6 * P.K - 1 + ccs.s + ccs.s) → F)) =>
    S (List.ofFn y.1) (List.ofFn y.2)) (UnitPair cs) D T hD
  rw [card_bytes, Fintype.card_prod, e1, e1, ← hU, ← hW] at hfc
  have hq := quad_count (fun (u : Fin (ccs.s + ccs.s) → F) (ρ : Fin (2 * P.K - 1) → Bytes cs.bytesNeeded)
      (w : Fin (6 * P.K - 1 + ccs.s + ccs.s) → F) => Heavy cs T (S (List.ofFn u) (List.ofFn w)) ρ)
    (fun u ρ w => ∃ wAcc wit : Witness (Fin N → F) C,
          wAcc.fCoeff = recombine P cs ρ (pick (List.ofFn u) (List.ofFn w) ρ) (fun ρ => (out (List.ofFn u) (List.ofFn w) ρ).fCoeff) 0 ∧
          wit.fCoeff = recombine P cs ρ (pick (List.ofFn u) (List.ofFn w) ρ) (fun ρ => (out (List.ofFn u) (List.ofFn w) ρ).fCoeff) P.K ∧
          LcccsHolds rd P ccs scheme acc wAcc ∧ WitBelow rd (P.bSmall ^ P.K) wAcc ∧
          FreshBelow rd P ccs scheme cm (P.bSmall ^ (P.K - 1) * lastBound P (γ * β) bound) wit)
    (fun u ρ w w' => ∃ k < 2 * P.K, KernelVec rd scheme (4 * γ * β * bound) (collide cs ρ (pick (List.ofFn u) (List.ofFn w) ρ)
          (pick (List.ofFn u) (List.ofFn w') ρ)
          (out (List.ofFn u) (List.ofFn w) ρ).fCoeff
          (fun i => (out (List.ofFn u) (List.ofFn w) (Function.update ρ i (pick (List.ofFn u) (List.ofFn w) ρ i))).fCoeff)
          (out (List.ofFn u) (List.ofFn w') ρ).fCoeff
          (fun i => (out (List.ofFn u) (List.ofFn w') (Function.update ρ i (pick (List.ofFn u) (List.ofFn w') ρ i))).fCoeff) k))
    (fun u0 ρ0 w0 u ρ w => KernelVec rd scheme (2 * (P.bSmall ^ (P.K - 1) * lastBound P (γ * β) bound))
          (diffVec (recombine P cs ρ (pick (List.ofFn u) (List.ofFn w) ρ) (fun ρ => (out (List.ofFn u) (List.ofFn w) ρ).fCoeff) P.K)
            (recombine P cs ρ0 (pick (List.ofFn u0) (List.ofFn w0) ρ0) (fun ρ => (out (List.ofFn u0) (List.ofFn w0) ρ).fCoeff) P.K)))
    ((ccs.s + max τ ccs.M.length + ccs.s * (2 * P.bSmall)) * Fintype.card F ^ (6 * P.K - 1 + ccs.s + ccs.s - 1))
    ((ccs.s + ccs.s * (ccs.d + 1)) * Fintype.card F ^ (ccs.s + ccs.s - 1)) n (by
      intro u0 ρ0 w0 h0
      rcases C92_extractor rd P hK hb cs htab hbd hγ ccs scheme hS ht hc hd acc hr cm A hA bound out S hSdef ρ0
        (pick (List.ofFn u0) (List.ofFn w0) ρ0) (List.ofFn u0) (List.ofFn w0) (by simp) (by simp) (hpick _ _ _ h0) with h | ⟨Z, hZ, h⟩ | ⟨Y, hY, h⟩
      · exact Or.inl h
      · refine Or.inr (Or.inl (le_trans (card_le_card ?_) hZ))
        intro x hx
        rw [mem_filter] at hx
        by_contra hxZ
        exact hx.2.2 (h x hxZ _ rfl _ (hpick _ _ _ hx.2.1))
      · refine Or.inr (Or.inr ⟨Y, hY, fun u hu ρ w hw => ?_⟩)
        rcases h u hu _ rfl (List.ofFn w) (by simp) ρ _ (hpick _ _ _ hw) with h | ⟨Z, hZ, h⟩
        · exact Or.inl h
        · refine Or.inr (le_trans (card_le_card ?_) hZ)
          intro x hx
          rw [mem_filter] at hx
          by_contra hxZ
          exact hx.2.2 (h x hxZ _ rfl _ (hpick _ _ _ hx.2.1))) (by
      rw [hn]
      refine Nat.sub_le_of_le_add (hfc.trans (Nat.add_le_add_right ?_ _))
      apply card_le_card_of_injOn (fun y => (y.1.1, y.2, y.1.2))
      · intro y hy
        rw [mem_coe, mem_filter] at hy ⊢
        exact ⟨mem_univ _, hy.2⟩
      · rintro ⟨⟨a, b⟩, c⟩ _ ⟨⟨a', b'⟩, c'⟩ _ he
        simp only [Prod.mk.injEq] at he ⊢
        tauto)
  rw [e1, e1, e2, ← hU, ← hW] at hq
  exact hq

end Norm

/-! ## The shipped rings -/

section Rings
variable {F C : Type} [Field F] [DecidableEq F] [Fintype F] [CommRing C]

open Classical in
/-- **C92** (Goldilocks). -/
theorem C92_goldilocks [Algebra (ZMod pGoldilocks) F] [Algebra (ZMod pGoldilocks) C]
    (rd : RingData (ZMod pGoldilocks) F C 8 3) (hX : rd.X ^ 24 - rd.X ^ 12 + 1 = 0) (P : Params) (hK : 1 ≤ P.K) (hb : 1 ≤ P.bSmall)
    (ccs : CCS (Fin 8 → F)) (scheme : Ajtai (Fin 8 → F)) (hS : SizesOK P ccs scheme)
    (ht : ccs.t = ccs.M.length) (hc : CharGt F (2 * P.bSmall)) (hd : CharGt F (ccs.d + 1))
    (acc : LCCCS (Fin 8 → F)) (hr : acc.r.length = ccs.s) (cm : CCCS (Fin 8 → F))
    (A : NifsProver F (Fin 8 → F)) (hA : ProverShape P ccs scheme 3 A) (bound T : Nat)
    (out : List F → List F → (Fin (2 * P.K - 1) → Bytes 18) → Witness (Fin 8 → F) C)
    (S : List F → List F → (Fin (2 * P.K - 1) → Bytes 18) → Prop)
    (hSdef : S = fun u w ρ => NifsSucceedsWith rd P (packedSet rd.coeff) ccs scheme acc cm bound u w (A.proof ccs.s (6 * P.K - 1 + ccs.s) u w) ρ (out u w ρ))
    (pick : List F → List F → (Fin (2 * P.K - 1) → Bytes 18) → Fin (2 * P.K - 1) → Bytes 18)
    (hpick : ∀ u w ρ, Heavy (packedSet rd.coeff) T (S u w) ρ → Forked (packedSet rd.coeff) (S u w) ρ (pick u w ρ)) (n U R W : Nat)
    (hU : U = Fintype.card F ^ (ccs.s + ccs.s)) (hR : R = (256 ^ 18) ^ (2 * P.K - 1))
    (hW : W = Fintype.card F ^ (6 * P.K - 1 + ccs.s + ccs.s))
    (hn : n = (univ.filter fun y : ((Fin (ccs.s + ccs.s) → F) × (Fin (6 * P.K - 1 + ccs.s + ccs.s) → F)) ×
          (Fin (2 * P.K - 1) → Bytes 18) => S (List.ofFn y.1.1) (List.ofFn y.1.2) y.2).card
      - (2 * P.K - 1) * ((1 + T) * (U * W * (256 ^ 18) ^ (2 * P.K - 1 - 1)))) :
    n * n * (n * (n - 2 * ((ccs.s + max 3 ccs.M.length + ccs.s * (2 * P.bSmall)) * Fintype.card F ^ (6 * P.K - 1 + ccs.s + ccs.s - 1))
          * (U * R))
        - (ccs.s + ccs.s * (ccs.d + 1)) * Fintype.card F ^ (ccs.s + ccs.s - 1) * (U * R) * (R * W * W)) ≤ (U * R) ^ 2 *
      (univ.filter fun q : ((Fin (ccs.s + ccs.s) → F) × (Fin (2 * P.K - 1) → Bytes 18) ×
            (Fin (6 * P.K - 1 + ccs.s + ccs.s) → F) × (Fin (6 * P.K - 1 + ccs.s + ccs.s) → F)) ×
          (Fin (ccs.s + ccs.s) → F) × (Fin (2 * P.K - 1) → Bytes 18) ×
            (Fin (6 * P.K - 1 + ccs.s + ccs.s) → F) × (Fin (6 * P.K - 1 + ccs.s + ccs.s) → F) =>
        let u0 := List.ofFn q.1.1
        let ρ0 := q.1.2.1
        let w0 := List.ofFn q.1.2.2.1
        let w0' := List.ofFn q.1.2.2.2
        let u := List.ofFn q.2.1
        let ρ := q.2.2.1
        let w := List.ofFn q.2.2.2.1
        let w' := List.ofFn q.2.2.2.2
        (Heavy (packedSet rd.coeff) T (S u0 w0) ρ0 ∧ Heavy (packedSet rd.coeff) T (S u0 w0') ρ0 ∧ Heavy (packedSet rd.coeff) T (S u w) ρ ∧ Heavy (packedSet rd.coeff) T (S u w') ρ) ∧
        ((∃ wAcc wit : Witness (Fin 8 → F) C,
          wAcc.fCoeff = recombine P (packedSet rd.coeff) ρ0 (pick u0 w0 ρ0) (fun ρ => (out u0 w0 ρ).fCoeff) 0 ∧
          wit.fCoeff = recombine P (packedSet rd.coeff) ρ0 (pick u0 w0 ρ0) (fun ρ => (out u0 w0 ρ).fCoeff) P.K ∧
          LcccsHolds rd P ccs scheme acc wAcc ∧ WitBelow rd (P.bSmall ^ P.K) wAcc ∧
          FreshBelow rd P ccs scheme cm (P.bSmall ^ (P.K - 1) * lastBound P 1152 bound) wit) ∨
        (∃ k < 2 * P.K, KernelVec rd scheme (4608 * bound) (collide (packedSet rd.coeff) ρ0 (pick u0 w0 ρ0) (pick u0 w0' ρ0)
          (out u0 w0 ρ0).fCoeff (fun i => (out u0 w0 (Function.update ρ0 i (pick u0 w0 ρ0 i))).fCoeff)
          (out u0 w0' ρ0).fCoeff (fun i => (out u0 w0' (Function.update ρ0 i (pick u0 w0' ρ0 i))).fCoeff) k)) ∨
        KernelVec rd scheme (2 * (P.bSmall ^ (P.K - 1) * lastBound P 1152 bound))
          (diffVec (recombine P (packedSet rd.coeff) ρ (pick u w ρ) (fun ρ => (out u w ρ).fCoeff) P.K)
            (recombine P (packedSet rd.coeff) ρ0 (pick u0 w0 ρ0) (fun ρ => (out u0 w0 ρ).fCoeff) P.K)) ∨
        ∃ k < 2 * P.K, KernelVec rd scheme (4608 * bound) (collide (packedSet rd.coeff) ρ (pick u w ρ) (pick u w' ρ)
          (out u w ρ).fCoeff (fun i => (out u w (Function.update ρ i (pick u w ρ i))).fCoeff)
          (out u w' ρ).fCoeff (fun i => (out u w' (Function.update ρ i (pick u w' ρ i))).fCoeff) k))).card := by
  refine C92_count rd P hK hb (packedSet rd.coeff) (table_goldilocks rd hX) (bounded_packed rd) (by norm_num) ccs scheme hS ht hc hd acc hr cm A hA bound 1 T
    (unit_le_one _ ?_) out S hSdef pick hpick n U R W hU hR hW hn
  intro bs bs' h h' hne c c' e e'
  obtain ⟨d, d', h3, h4, h5, -⟩ := C83_goldilocks rd hX bs bs' h h' hne
  have e : packedChallenge rd.coeff bs = .ok c := e
  have e' : packedChallenge rd.coeff bs' = .ok c' := e'
  rw [e] at h3; rw [e'] at h4; cases h3; cases h4; exact h5

open Classical in
/-- **C92** (BabyBear). -/
theorem C92_babybear [Algebra (ZMod pBabyBear) F] [Algebra (ZMod pBabyBear) C]
    (rd : RingData (ZMod pBabyBear) F C 8 9) (hX : rd.X ^ 72 - rd.X ^ 36 + 1 = 0) (P : Params) (hK : 1 ≤ P.K) (hb : 1 ≤ P.bSmall)
    (ccs : CCS (Fin 8 → F)) (scheme : Ajtai (Fin 8 → F)) (hS : SizesOK P ccs scheme)
    (ht : ccs.t = ccs.M.length) (hc : CharGt F (2 * P.bSmall)) (hd : CharGt F (ccs.d + 1))
    (acc : LCCCS (Fin 8 → F)) (hr : acc.r.length = ccs.s) (cm : CCCS (Fin 8 → F))
    (A : NifsProver F (Fin 8 → F)) (hA : ProverShape P ccs scheme 9 A) (bound T : Nat)
    (out : List F → List F → (Fin (2 * P.K - 1) → Bytes 18) → Witness (Fin 8 → F) C)
    (S : List F → List F → (Fin (2 * P.K - 1) → Bytes 18) → Prop)
    (hSdef : S = fun u w ρ => NifsSucceedsWith rd P (packedSet rd.coeff) ccs scheme acc cm bound u w (A.proof ccs.s (6 * P.K - 1 + ccs.s) u w) ρ (out u w ρ))
    (pick : List F → List F → (Fin (2 * P.K - 1) → Bytes 18) → Fin (2 * P.K - 1) → Bytes 18)
    (hpick : ∀ u w ρ, Heavy (packedSet rd.coeff) T (S u w) ρ → Forked (packedSet rd.coeff) (S u w) ρ (pick u w ρ)) (n U R W : Nat)
    (hU : U = Fintype.card F ^ (ccs.s + ccs.s)) (hR : R = (256 ^ 18) ^ (2 * P.K - 1))
    (hW : W = Fintype.card F ^ (6 * P.K - 1 + ccs.s + ccs.s))
    (hn : n = (univ.filter fun y : ((Fin (ccs.s + ccs.s) → F) × (Fin (6 * P.K - 1 + ccs.s + ccs.s) → F)) ×
          (Fin (2 * P.K - 1) → Bytes 18) => S (List.ofFn y.1.1) (List.ofFn y.1.2) y.2).card
      - (2 * P.K - 1) * ((1 + T) * (U * W * (256 ^ 18) ^ (2 * P.K - 1 - 1)))) :
    n * n * (n * (n - 2 * ((ccs.s + max 9 ccs.M.length + ccs.s * (2 * P.bSmall)) * Fintype.card F ^ (6 * P.K - 1 + ccs.s + ccs.s - 1))
          * (U * R))
        - (ccs.s + ccs.s * (ccs.d + 1)) * Fintype.card F ^ (ccs.s + ccs.s - 1) * (U * R) * (R * W * W)) ≤ (U * R) ^ 2 *
      (univ.filter fun q : ((Fin (ccs.s + ccs.s) → F) × (Fin (2 * P.K - 1) → Bytes 18) ×
            (Fin (6 * P.K - 1 + ccs.s + ccs.s) → F) × (Fin (6 * P.K - 1 + ccs.s + ccs.s) → F)) ×
          (Fin (ccs.s + ccs.s) → F) × (Fin (2 * P.K - 1) → Bytes 18) ×
            (Fin (6 * P.K - 1 + ccs.s + ccs.s) → F) × (Fin (6 * P.K - 1 + ccs.s + ccs.s) → F) =>
        let u0 := List.ofFn q.1.1
        let ρ0 := q.1.2.1
        let w0 := List.ofFn q.1.2.2.1
        let w0' := List.ofFn q.1.2.2.2
        let u := List.ofFn q.2.1
        let ρ := q.2.2.1
        let w := List.ofFn q.2.2.2.1
        let w' := List.ofFn q.2.2.2.2
        (Heavy (packedSet rd.coeff) T (S u0 w0) ρ0 ∧ Heavy (packedSet rd.coeff) T (S u0 w0') ρ0 ∧ Heavy (packedSet rd.coeff) T (S u w) ρ ∧ Heavy (packedSet rd.coeff) T (S u w') ρ) ∧
        ((∃ wAcc wit : Witness (Fin 8 → F) C,
          wAcc.fCoeff = recombine P (packedSet rd.coeff) ρ0 (pick u0 w0 ρ0) (fun ρ => (out u0 w0 ρ).fCoeff) 0 ∧
          wit.fCoeff = recombine P (packedSet rd.coeff) ρ0 (pick u0 w0 ρ0) (fun ρ => (out u0 w0 ρ).fCoeff) P.K ∧
          LcccsHolds rd P ccs scheme acc wAcc ∧ WitBelow rd (P.bSmall ^ P.K) wAcc ∧
          FreshBelow rd P ccs scheme cm (P.bSmall ^ (P.K - 1) * lastBound P 1504 bound) wit) ∨
        (∃ k < 2 * P.K, KernelVec rd scheme (6016 * bound) (collide (packedSet rd.coeff) ρ0 (pick u0 w0 ρ0) (pick u0 w0' ρ0)
          (out u0 w0 ρ0).fCoeff (fun i => (out u0 w0 (Function.update ρ0 i (pick u0 w0 ρ0 i))).fCoeff)
          (out u0 w0' ρ0).fCoeff (fun i => (out u0 w0' (Function.update ρ0 i (pick u0 w0' ρ0 i))).fCoeff) k)) ∨
        KernelVec rd scheme (2 * (P.bSmall ^ (P.K - 1) * lastBound P 1504 bound))
          (diffVec (recombine P (packedSet rd.coeff) ρ (pick u w ρ) (fun ρ => (out u w ρ).fCoeff) P.K)
            (recombine P (packedSet rd.coeff) ρ0 (pick u0 w0 ρ0) (fun ρ => (out u0 w0 ρ).fCoeff) P.K)) ∨
        ∃ k < 2 * P.K, KernelVec rd scheme (6016 * bound) (collide (packedSet rd.coeff) ρ (pick u w ρ) (pick u w' ρ)
          (out u w ρ).fCoeff (fun i => (out u w (Function.update ρ i (pick u w ρ i))).fCoeff)
          (out u w' ρ).fCoeff (fun i => (out u w' (Function.update ρ i (pick u w' ρ i))).fCoeff) k))).card := by
  refine C92_count rd P hK hb (packedSet rd.coeff) (table_babybear rd hX) (bounded_packed rd) (by norm_num) ccs scheme hS ht hc hd acc hr cm A hA bound 1 T
    (unit_le_one _ ?_) out S hSdef pick hpick n U R W hU hR hW hn
  intro bs bs' h h' hne c c' e e'
  obtain ⟨d, d', h3, h4, h5, -⟩ := C83_babybear rd hX bs bs' h h' hne
  have e : packedChallenge rd.coeff bs = .ok c := e
  have e' : packedChallenge rd.coeff bs' = .ok c' := e'
  rw [e] at h3; rw [e'] at h4; cases h3; cases h4; exact h5

open Classical in
/-- **C92** (Frog). -/
theorem C92_frog [Algebra (ZMod pFrog) F] [Algebra (ZMod pFrog) C]
    (rd : RingData (ZMod pFrog) F C 4 4) (hX : rd.X ^ 16 + 1 = 0) (P : Params) (hK : 1 ≤ P.K) (hb : 1 ≤ P.bSmall)
    (ccs : CCS (Fin 4 → F)) (scheme : Ajtai (Fin 4 → F)) (hS : SizesOK P ccs scheme)
    (ht : ccs.t = ccs.M.length) (hc : CharGt F (2 * P.bSmall)) (hd : CharGt F (ccs.d + 1))
    (acc : LCCCS (Fin 4 → F)) (hr : acc.r.length = ccs.s) (cm : CCCS (Fin 4 → F))
    (A : NifsProver F (Fin 4 → F)) (hA : ProverShape P ccs scheme 4 A) (bound T : Nat)
    (out : List F → List F → (Fin (2 * P.K - 1) → Bytes 16) → Witness (Fin 4 → F) C)
    (S : List F → List F → (Fin (2 * P.K - 1) → Bytes 16) → Prop)
    (hSdef : S = fun u w ρ => NifsSucceedsWith rd P (frogSet rd.coeff) ccs scheme acc cm bound u w (A.proof ccs.s (6 * P.K - 1 + ccs.s) u w) ρ (out u w ρ))
    (pick : List F → List F → (Fin (2 * P.K - 1) → Bytes 16) → Fin (2 * P.K - 1) → Bytes 16)
    (hpick : ∀ u w ρ, Heavy (frogSet rd.coeff) T (S u w) ρ → Forked (frogSet rd.coeff) (S u w) ρ (pick u w ρ)) (n U R W : Nat)
    (hU : U = Fintype.card F ^ (ccs.s + ccs.s)) (hR : R = (256 ^ 16) ^ (2 * P.K - 1))
    (hW : W = Fintype.card F ^ (6 * P.K - 1 + ccs.s + ccs.s))
    (hn : n = (univ.filter fun y : ((Fin (ccs.s + ccs.s) → F) × (Fin (6 * P.K - 1 + ccs.s + ccs.s) → F)) ×
          (Fin (2 * P.K - 1) → Bytes 16) => S (List.ofFn y.1.1) (List.ofFn y.1.2) y.2).card
      - (2 * P.K - 1) * ((1 + T) * (U * W * (256 ^ 16) ^ (2 * P.K - 1 - 1)))) :
    n * n * (n * (n - 2 * ((ccs.s + max 4 ccs.M.length + ccs.s * (2 * P.bSmall)) * Fintype.card F ^ (6 * P.K - 1 + ccs.s + ccs.s - 1))
          * (U * R))
        - (ccs.s + ccs.s * (ccs.d + 1)) * Fintype.card F ^ (ccs.s + ccs.s - 1) * (U * R) * (R * W * W)) ≤ (U * R) ^ 2 *
      (univ.filter fun q : ((Fin (ccs.s + ccs.s) → F) × (Fin (2 * P.K - 1) → Bytes 16) ×
            (Fin (6 * P.K - 1 + ccs.s + ccs.s) → F) × (Fin (6 * P.K - 1 + ccs.s + ccs.s) → F)) ×
          (Fin (ccs.s + ccs.s) → F) × (Fin (2 * P.K - 1) → Bytes 16) ×
            (Fin (6 * P.K - 1 + ccs.s + ccs.s) → F) × (Fin (6 * P.K - 1 + ccs.s + ccs.s) → F) =>
        let u0 := List.ofFn q.1.1
        let ρ0 := q.1.2.1
        let w0 := List.ofFn q.1.2.2.1
        let w0' := List.ofFn q.1.2.2.2
        let u := List.ofFn q.2.1
        let ρ := q.2.2.1
        let w := List.ofFn q.2.2.2.1
        let w' := List.ofFn q.2.2.2.2
        (Heavy (frogSet rd.coeff) T (S u0 w0) ρ0 ∧ Heavy (frogSet rd.coeff) T (S u0 w0') ρ0 ∧ Heavy (frogSet rd.coeff) T (S u w) ρ ∧ Heavy (frogSet rd.coeff) T (S u w') ρ) ∧
        ((∃ wAcc wit : Witness (Fin 4 → F) C,
          wAcc.fCoeff = recombine P (frogSet rd.coeff) ρ0 (pick u0 w0 ρ0) (fun ρ => (out u0 w0 ρ).fCoeff) 0 ∧
          wit.fCoeff = recombine P (frogSet rd.coeff) ρ0 (pick u0 w0 ρ0) (fun ρ => (out u0 w0 ρ).fCoeff) P.K ∧
          LcccsHolds rd P ccs scheme acc wAcc ∧ WitBelow rd (P.bSmall ^ P.K) wAcc ∧
          FreshBelow rd P ccs scheme cm (P.bSmall ^ (P.K - 1) * lastBound P 2048 bound) wit) ∨
        (∃ k < 2 * P.K, KernelVec rd scheme (8192 * bound) (collide (frogSet rd.coeff) ρ0 (pick u0 w0 ρ0) (pick u0 w0' ρ0)
          (out u0 w0 ρ0).fCoeff (fun i => (out u0 w0 (Function.update ρ0 i (pick u0 w0 ρ0 i))).fCoeff)
          (out u0 w0' ρ0).fCoeff (fun i => (out u0 w0' (Function.update ρ0 i (pick u0 w0' ρ0 i))).fCoeff) k)) ∨
        KernelVec rd scheme (2 * (P.bSmall ^ (P.K - 1) * lastBound P 2048 bound))
          (diffVec (recombine P (frogSet rd.coeff) ρ (pick u w ρ) (fun ρ => (out u w ρ).fCoeff) P.K)
            (recombine P (frogSet rd.coeff) ρ0 (pick u0 w0 ρ0) (fun ρ => (out u0 w0 ρ).fCoeff) P.K)) ∨
        ∃ k < 2 * P.K, KernelVec rd scheme (8192 * bound) (collide (frogSet rd.coeff) ρ (pick u w ρ) (pick u w' ρ)
          (out u w ρ).fCoeff (fun i => (out u w (Function.update ρ i (pick u w ρ i))).fCoeff)
          (out u w' ρ).fCoeff (fun i => (out u w' (Function.update ρ i (pick u w' ρ i))).fCoeff) k))).card := by
  refine C92_count rd P hK hb (frogSet rd.coeff) (table_frog rd hX) (bounded_frog rd) (by norm_num) ccs scheme hS ht hc hd acc hr cm A hA bound 1 T
    (unit_le_one _ ?_) out S hSdef pick hpick n U R W hU hR hW hn
  intro bs bs' h h' hne c c' e e'
  obtain ⟨d, d', h3, h4, h5, -⟩ := C83_frog rd hX bs bs' h h' hne
  have e : frogChallenge rd.coeff bs = .ok c := e
  have e' : frogChallenge rd.coeff bs' = .ok c' := e'
  rw [e] at h3; rw [e'] at h4; cases h3; cases h4; exact h5

open Classical in
/-- **C92** (Stark). -/
theorem C92_stark [Algebra (ZMod pStark) F] [Algebra (ZMod pStark) C]
    (rd : RingData (ZMod pStark) F C 16 1) (hX : rd.X ^ 16 + 1 = 0) (P : Params) (hK : 1 ≤ P.K) (hb : 1 ≤ P.bSmall)
    (ccs : CCS (Fin 16 → F)) (scheme : Ajtai (Fin 16 → F)) (hS : SizesOK P ccs scheme)
    (ht : ccs.t = ccs.M.length) (hc : CharGt F (2 * P.bSmall)) (hd : CharGt F (ccs.d + 1))
    (acc : LCCCS (Fin 16 → F)) (hr : acc.r.length = ccs.s) (cm : CCCS (Fin 16 → F))
    (A : NifsProver F (Fin 16 → F)) (hA : ProverShape P ccs scheme 1 A) (bound T : Nat)
    (out : List F → List F → (Fin (2 * P.K - 1) → Bytes 16) → Witness (Fin 16 → F) C)
    (S : List F → List F → (Fin (2 * P.K - 1) → Bytes 16) → Prop)
    (hSdef : S = fun u w ρ => NifsSucceedsWith rd P (starkSet rd.coeff) ccs scheme acc cm bound u w (A.proof ccs.s (6 * P.K - 1 + ccs.s) u w) ρ (out u w ρ))
    (pick : List F → List F → (Fin (2 * P.K - 1) → Bytes 16) → Fin (2 * P.K - 1) → Bytes 16)
    (hpick : ∀ u w ρ, Heavy (starkSet rd.coeff) T (S u w) ρ → Forked (starkSet rd.coeff) (S u w) ρ (pick u w ρ)) (n U R W : Nat)
    (hU : U = Fintype.card F ^ (ccs.s + ccs.s)) (hR : R = (256 ^ 16) ^ (2 * P.K - 1))
    (hW : W = Fintype.card F ^ (6 * P.K - 1 + ccs.s + ccs.s))
    (hn : n = (univ.filter fun y : ((Fin (ccs.s + ccs.s) → F) × (Fin (6 * P.K - 1 + ccs.s + ccs.s) → F)) ×
          (Fin (2 * P.K - 1) → Bytes 16) => S (List.ofFn y.1.1) (List.ofFn y.1.2) y.2).card
      - (2 * P.K - 1) * ((1 + T) * (U * W * (256 ^ 16) ^ (2 * P.K - 1 - 1)))) :
    n * n * (n * (n - 2 * ((ccs.s + max 1 ccs.M.length + ccs.s * (2 * P.bSmall)) * Fintype.card F ^ (6 * P.K - 1 + ccs.s + ccs.s - 1))
          * (U * R))
        - (ccs.s + ccs.s * (ccs.d + 1)) * Fintype.card F ^ (ccs.s + ccs.s - 1) * (U * R) * (R * W * W)) ≤ (U * R) ^ 2 *
      (univ.filter fun q : ((Fin (ccs.s + ccs.s) → F) × (Fin (2 * P.K - 1) → Bytes 16) ×
            (Fin (6 * P.K - 1 + ccs.s + ccs.s) → F) × (Fin (6 * P.K - 1 + ccs.s + ccs.s) → F)) ×
          (Fin (ccs.s + ccs.s) → F) × (Fin (2 * P.K - 1) → Bytes 16) ×
            (Fin (6 * P.K - 1 + ccs.s + ccs.s) → F) × (Fin (6 * P.K - 1 + ccs.s + ccs.s) → F) =>
        let u0 := List.ofFn q.1.1
        let ρ0 := q.1.2.1
        let w0 := List.ofFn q.1.2.2.1
        let w0' := List.ofFn q.1.2.2.2
        let u := List.ofFn q.2.1
        let ρ := q.2.2.1
        let w := List.ofFn q.2.2.2.1
        let w' := List.ofFn q.2.2.2.2
        (Heavy (starkSet rd.coeff) T (S u0 w0) ρ0 ∧ Heavy (starkSet rd.coeff) T (S u0 w0') ρ0 ∧ Heavy (starkSet rd.coeff) T (S u w) ρ ∧ Heavy (starkSet rd.coeff) T (S u w') ρ) ∧
        ((∃ wAcc wit : Witness (Fin 16 → F) C,
          wAcc.fCoeff = recombine P (starkSet rd.coeff) ρ0 (pick u0 w0 ρ0) (fun ρ => (out u0 w0 ρ).fCoeff) 0 ∧
          wit.fCoeff = recombine P (starkSet rd.coeff) ρ0 (pick u0 w0 ρ0) (fun ρ => (out u0 w0 ρ).fCoeff) P.K ∧
          LcccsHolds rd P ccs scheme acc wAcc ∧ WitBelow rd (P.bSmall ^ P.K) wAcc ∧
          FreshBelow rd P ccs scheme cm (P.bSmall ^ (P.K - 1) * lastBound P 4080 bound) wit) ∨
        (∃ k < 2 * P.K, KernelVec rd scheme (16320 * bound) (collide (starkSet rd.coeff) ρ0 (pick u0 w0 ρ0) (pick u0 w0' ρ0)
          (out u0 w0 ρ0).fCoeff (fun i => (out u0 w0 (Function.update ρ0 i (pick u0 w0 ρ0 i))).fCoeff)
          (out u0 w0' ρ0).fCoeff (fun i => (out u0 w0' (Function.update ρ0 i (pick u0 w0' ρ0 i))).fCoeff) k)) ∨
        KernelVec rd scheme (2 * (P.bSmall ^ (P.K - 1) * lastBound P 4080 bound))
          (diffVec (recombine P (starkSet rd.coeff) ρ (pick u w ρ) (fun ρ => (out u w ρ).fCoeff) P.K)
            (recombine P (starkSet rd.coeff) ρ0 (pick u0 w0 ρ0) (fun ρ => (out u0 w0 ρ).fCoeff) P.K)) ∨
        ∃ k < 2 * P.K, KernelVec rd scheme (16320 * bound) (collide (starkSet rd.coeff) ρ (pick u w ρ) (pick u w' ρ)
          (out u w ρ).fCoeff (fun i => (out u w (Function.update ρ i (pick u w ρ i))).fCoeff)
          (out u w' ρ).fCoeff (fun i => (out u w' (Function.update ρ i (pick u w' ρ i))).fCoeff) k))).card := by
  refine C92_count rd P hK hb (starkSet rd.coeff) (table_stark rd hX) (bounded_stark rd) (by norm_num) ccs scheme hS ht hc hd acc hr cm A hA bound 1 T
    (unit_le_one _ ?_) out S hSdef pick hpick n U R W hU hR hW hn
  intro bs bs' h h' hne c c' e e'
  obtain ⟨d, d', h3, h4, h5, -⟩ := C83_stark rd hX bs bs' h h' hne
  have e : starkChallenge rd.coeff bs = .ok c := e
  have e' : starkChallenge rd.coeff bs' = .ok c' := e'
  rw [e] at h3; rw [e'] at h4; cases h3; cases h4; exact h5

end Rings

/-! ## A concrete case -/

section Examples

open Classical in
/-- Over the field of 257 elements, with a commitment matrix that has a short kernel vector: there is a prover and a choice of runs
for which the extractor computes the witnesses or a short kernel vector. -/
example : ∃ (out : List (ZMod 257) → List (ZMod 257) → (Fin 3 → Bytes 1) → Witness C257 C257)
    (u0 w0 w0' u w w' : List (ZMod 257)) (ρ0 b0 b0' ρ b b' : Fin 3 → Bytes 1),
    (∃ wAcc wit : Witness C257 C257,
      wAcc.fCoeff = recombine par257 cs257 ρ0 b0 (fun ρ => (out u0 w0 ρ).fCoeff) 0 ∧
      wit.fCoeff = recombine par257 cs257 ρ0 b0 (fun ρ => (out u0 w0 ρ).fCoeff) 2 ∧
      LcccsHolds ring257 par257 ccs257 schemeC (accC ![7] ![4] ![9] (wit257 ![100] ![33])) wAcc ∧ WitBelow ring257 256 wAcc ∧
      FreshBelow ring257 par257 ccs257 schemeC freshC 186032 wit) ∨
    (∃ k < 4, KernelVec ring257 schemeC 277440 (collide cs257 ρ0 b0 b0'
      (out u0 w0 ρ0).fCoeff (fun i => (out u0 w0 (Function.update ρ0 i (b0 i))).fCoeff)
      (out u0 w0' ρ0).fCoeff (fun i => (out u0 w0' (Function.update ρ0 i (b0' i))).fCoeff) k)) ∨
    KernelVec ring257 schemeC 372064
      (diffVec (recombine par257 cs257 ρ b (fun ρ => (out u w ρ).fCoeff) 2)
        (recombine par257 cs257 ρ0 b0 (fun ρ => (out u0 w0 ρ).fCoeff) 2)) ∨
    ∃ k < 4, KernelVec ring257 schemeC 277440 (collide cs257 ρ b b'
      (out u w ρ).fCoeff (fun i => (out u w (Function.update ρ i (b i))).fCoeff)
      (out u w' ρ).fCoeff (fun i => (out u w' (Function.update ρ i (b' i))).fCoeff) k) := by
  obtain ⟨A, hA, hsucc⟩ := C90_honest ring257 par257 cs257 ccs257 schemeC (accC ![7] ![4] ![9] (wit257 ![100] ![33])) _ freshC _
    par257_ok sizesC rfl aligned257 (charGt257 _ (by decide)) (charGt257 _ (by decide)) cs257_ok (fun _ _ _ _ _ _ => reach257 _)
    (accC_holds _ _ _ _ _) (fun _ _ _ => reach257 _) freshC_holds
  have hex : ∀ (u w : List (ZMod 257)) (ρ : Fin 3 → Bytes 1), ∃ wit, u.length = 2 → w.length = 13 →
      NifsSucceedsWith ring257 par257 cs257 ccs257 schemeC (accC ![7] ![4] ![9] (wit257 ![100] ![33])) freshC 272 u w
        (A.proof 1 12 u w) ρ wit := by
    intro u w ρ
    by_cases hw : u.length = 2 ∧ w.length = 13
    · obtain ⟨st, t, wit, h1, h2, h3⟩ := hsucc u w ρ hw.1 hw.2
      exact ⟨wit, fun _ _ => ⟨st, t, h1, h2, h3⟩⟩
    · exact ⟨wit257 0 0, fun h h' => absurd ⟨h, h'⟩ hw⟩
  choose out hout using hex
  set S : List (ZMod 257) → List (ZMod 257) → (Fin 3 → Bytes 1) → Prop := fun u w ρ =>
    NifsSucceedsWith ring257 par257 cs257 ccs257 schemeC (accC ![7] ![4] ![9] (wit257 ![100] ![33])) freshC 272 u w
      (A.proof 1 12 u w) ρ (out u w ρ) with hS
  obtain ⟨pick, hpick⟩ := exists_pick cs257 0 fun (x : List (ZMod 257) × List (ZMod 257)) => S x.1 x.2
  have hall : (univ.filter fun y : ((Fin 2 → ZMod 257) × (Fin 13 → ZMod 257)) × (Fin 3 → Bytes 1) =>
      S (List.ofFn y.1.1) (List.ofFn y.1.2) y.2).card = 257 ^ 2 * 257 ^ 13 * (256 ^ 1) ^ 3 := by
    rw [filter_true_of_mem (fun y _ => hout _ _ _ (by rw [List.length_ofFn]) (by rw [List.length_ofFn])), card_univ, Fintype.card_prod,
      Fintype.card_prod, Fintype.card_fun, Fintype.card_fun, Fintype.card_fun, card_bytes, ZMod.card, Fintype.card_fin, Fintype.card_fin,
      Fintype.card_fin]
  have h := C92_count ring257 par257 (by decide) (by decide) cs257 table257 bounded257 (by decide) ccs257 schemeC sizesC rfl
    (charGt257 _ (by decide)) (charGt257 _ (by decide)) (accC ![7] ![4] ![9] (wit257 ![100] ![33])) rfl freshC A hA
    272 1 0 (unit_le_one cs257 cs257_diff) out S rfl (fun u w => pick (u, w)) (fun u w ρ => hpick (u, w) ρ) _ _ _ _ rfl rfl rfl rfl
  have hall' : (univ.filter fun y : ((Fin (ccs257.s + ccs257.s) → ZMod 257) × (Fin (6 * par257.K - 1 + ccs257.s + ccs257.s) → ZMod 257)) ×
      (Fin (2 * par257.K - 1) → Bytes cs257.bytesNeeded) => S (List.ofFn y.1.1) (List.ofFn y.1.2) y.2).card
        = 257 ^ 2 * 257 ^ 13 * (256 ^ 1) ^ 3 := hall
  rw [hall', ZMod.card] at h
  have e1 : par257.K = 2 := rfl
  have e2 : ccs257.s = 1 := rfl
  have e3 : cs257.bytesNeeded = 1 := rfl
  have e4 : ccs257.M.length = 3 := rfl
  have e5 : par257.bSmall = 16 := rfl
  have e8 : ccs257.d = 2 := rfl
  have hpos := lt_of_lt_of_le (a := 0) (by simp only [e1, e2, e3, e4, e5, e8]; norm_num) h
  obtain ⟨q, hq⟩ := card_pos.1 (pos_of_mul_pos_right hpos (Nat.zero_le _))
  rw [mem_filter] at hq
  have hq := hq.2
  have e6 : par257.bSmall ^ (par257.K - 1) * lastBound par257 (1 * 255) 272 = 186032 := by
    rw [lastBound, e1, e5]
    norm_num
  have e7 : 4 * 1 * 255 * 272 = 277440 := by norm_num
  have e9 : par257.bSmall ^ par257.K = 256 := by rw [e1, e5]; norm_num
  have e10 : 2 * 186032 = 372064 := by norm_num
  rw [e6, e7, e9, e10] at hq
  exact ⟨out, List.ofFn q.1.1, List.ofFn q.1.2.2.1, List.ofFn q.1.2.2.2, List.ofFn q.2.1, List.ofFn q.2.2.2.1, List.ofFn q.2.2.2.2,
    q.1.2.1, pick (List.ofFn q.1.1, List.ofFn q.1.2.2.1) q.1.2.1, pick (List.ofFn q.1.1, List.ofFn q.1.2.2.2) q.1.2.1, q.2.2.1,
    pick (List.ofFn q.2.1, List.ofFn q.2.2.2.1) q.2.2.1, pick (List.ofFn q.2.1, List.ofFn q.2.2.2.2) q.2.2.1, hq.2⟩

end Examples

end Verif.Props
