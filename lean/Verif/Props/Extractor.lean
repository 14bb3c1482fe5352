import Verif.Lemmas.Extractor
import Verif.Props.Knowledge
import Verif.Props.ExampleCompress257

/-!
# Property theorems for the extractor of folding: C91
-/

set_option linter.unusedSectionVars false
set_option linter.unusedSimpArgs false
set_option linter.constructorNameAsVariable false

namespace Verif.Props

open Finset Spec Verif Verif.Poseidon Verif.NormGrowth Verif.SmallNorm Verif.Example

section Norm
variable {p : ℕ} [Fact p.Prime] {F C : Type} {N τ : ℕ} [Field F] [DecidableEq F] [CommRing C] [Algebra (ZMod p) F] [Algebra (ZMod p) C]

open Classical in
/-- If different bytes give challenges with invertible difference, there is at most one value without. -/
theorem unit_le_one (cs : ChallengeSet C) (hdiff : ∀ bs bs' : List UInt8, bs.length = cs.bytesNeeded → bs'.length = cs.bytesNeeded →
      bs ≠ bs' → ∀ c c', cs.decode bs = .ok c → cs.decode bs' = .ok c' → IsUnit (c - c')) (b : Bytes cs.bytesNeeded) :
    (univ.filter fun b' => ¬ UnitPair cs b b').card ≤ 1 := by
  rw [card_le_one]
  have key : ∀ b', b' ∈ (univ.filter fun b' => ¬ UnitPair cs b b') → b' = b := by
    intro b' hb'
    rw [mem_filter] at hb'
    by_contra hne
    exact hb'.2 fun c c' => hdiff _ _ (toList_length _) (toList_length _) (fun h => hne (toList_inj h).symm) c c'
  intro a ha a' ha'
  rw [key a ha, key a' ha']

/-- Where each challenge has replacements, they can be picked. -/
theorem heavy_forked (cs : ChallengeSet C) {m : Nat} (T : Nat) (S : (Fin m → Bytes cs.bytesNeeded) → Prop)
    (ρ : Fin m → Bytes cs.bytesNeeded) (h : Heavy cs T S ρ) : ∃ b, Forked cs S ρ b := by
  classical
  have : ∀ i, ∃ b, UnitPair cs (ρ i) b ∧ S (Function.update ρ i b) := by
    intro i
    obtain ⟨b, hb⟩ := card_pos.1 (Nat.lt_of_le_of_lt (Nat.zero_le _) (h.2 i))
    exact ⟨b, (mem_filter.1 hb).2⟩
  choose b hb using this
  exact ⟨b, h.1, hb⟩

theorem exists_pick {A : Type} (cs : ChallengeSet C) {m : Nat} (T : Nat) (S : A → (Fin m → Bytes cs.bytesNeeded) → Prop) :
    ∃ pick : A → (Fin m → Bytes cs.bytesNeeded) → Fin m → Bytes cs.bytesNeeded,
      ∀ x ρ, Heavy cs T (S x) ρ → Forked cs (S x) ρ (pick x ρ) := by
  classical
  refine ⟨fun x ρ => if h : ∃ b, Forked cs (S x) ρ b then h.choose else ρ, fun x ρ h => ?_⟩
  have := heavy_forked cs T (S x) ρ h
  simp only [dif_pos this]
  exact this.choose_spec

theorem getD_short (rd : RingData (ZMod p) F C N τ) {bound : ℕ} {wit : Witness (Fin N → F) C} (h : WitShort rd bound wit) (j : Nat)
    (i : Fin (τ * N)) : ∃ n : ℤ, 2 * n.natAbs ≤ bound ∧ rd.coeff (wit.fCoeff.getD j 0) i = (n : ZMod p) := by
  by_cases hj : j < wit.fCoeff.length
  · rw [List.getD_eq_getElem?_getD, List.getElem?_eq_getElem hj, Option.getD_some]
    obtain ⟨n, n1, n2⟩ := h _ (List.getElem_mem hj) i
    exact ⟨n, by omega, n2⟩
  · rw [getD_out _ (by omega)]
    exact ⟨0, by simp, by simp⟩

theorem diff_short (rd : RingData (ZMod p) F C N τ) {bound : ℕ} {wit wit' : Witness (Fin N → F) C} (h : WitShort rd bound wit)
    (h' : WitShort rd bound wit') (j : Nat) (i : Fin (τ * N)) :
    ∃ n : ℤ, n.natAbs ≤ bound ∧ rd.coeff (wit.fCoeff.getD j 0 - wit'.fCoeff.getD j 0) i = (n : ZMod p) := by
  obtain ⟨n, n1, n2⟩ := getD_short rd h j i
  obtain ⟨n', n1', n2'⟩ := getD_short rd h' j i
  refine ⟨n - n', ?_, ?_⟩
  · have := Int.natAbs_sub_le n n'
    omega
  · rw [map_sub, Pi.sub_apply, n2, n2']
    push_cast
    ring

/-- The verifier's output commitment depends only on the statements and the folding challenges. -/
theorem run_cm {Fp : Type} [Field Fp] [Algebra Fp F] [Algebra Fp C] (rd : RingData Fp F C N τ) (P : Params) (hK : 1 ≤ P.K)
    (cs : ChallengeSet C) (ccs : CCS (Fin N → F))
    (scheme : Ajtai (Fin N → F)) (ht : ccs.t = ccs.M.length) (cms : List (LCCCS (Fin N → F))) (B : Nat → Nat → List UInt8)
    (w w' : List F) (t t' : List F × Nat) (proof proof' : FoldProof (Fin N → F)) (hsh : FoldShape P ccs scheme cms proof.etaS)
    (hsh' : FoldShape P ccs scheme cms proof'.etaS) (st st' : LCCCS (Fin N → F))
    (g1 : foldVerify rd P cs (scripted (coinT F (Fin N → F)) B) (w, 0) cms proof ccs = .ok (st, t))
    (g2 : foldVerify rd P cs (scripted (coinT F (Fin N → F)) B) (w', 0) cms proof' ccs = .ok (st', t')) : st.cm = st'.cm := by
  obtain ⟨-, -, -, -, -, -, -, f, f1, f2, f3⟩ := run_comb rd P hK cs _ _ _ _ ccs scheme ht cms _ st hsh g1
  obtain ⟨-, -, -, -, -, -, -, f', f1', f2', f3'⟩ := run_comb rd P hK cs _ _ _ _ ccs scheme ht cms _ st' hsh' g2
  have hff : ∀ k < 2 * P.K, f k = f' k := by
    intro k hk
    by_cases hk' : k < 2 * P.K - 1
    · have e := (f2 k hk').symm.trans (f2' k hk')
      exact Except.ok.inj e
    · have : k = 2 * P.K - 1 := by omega
      subst this
      rw [f1, f1']
  have : st.cm.val = st'.cm.val := by
    apply ext_getD f3.cm.len f3'.cm.len
    intro j hj
    rw [f3.cm.eq j hj, f3'.cm.eq j hj]
    apply sum_congr rfl
    intro k hk
    rw [hff k (mem_range.1 hk)]
    rfl
  cases hst : st.cm
  cases hst' : st'.cm
  rw [hst, hst'] at this
  simp only at this
  rw [this]

/-- The commitments of the claimed statements do not depend on the proof. -/
theorem claimed_commit {Fp : Type} [Field Fp] [Algebra Fp F] [Algebra Fp C] (rd : RingData Fp F C N τ) (P : Params) (ccs : CCS (Fin N → F))
    (scheme : Ajtai (Fin N → F)) (cms : List (LCCCS (Fin N → F))) (th th' et et' : List (List (Fin N → F)))
    (r r' : List (Fin N → F)) (k : Nat) (W W' : Witness (Fin N → F) C)
    (h : LcccsHolds rd P ccs scheme (claimed cms th et 0 r k) W) (h' : LcccsHolds rd P ccs scheme (claimed cms th' et' 0 r' k) W') :
    scheme.commit (W.fCoeff.map rd.crt) = scheme.commit (W'.fCoeff.map rd.crt) := by
  have e1 := h.cm
  have e2 := h'.cm
  rw [h.witOK.f] at e1
  rw [h'.witOK.f] at e2
  rw [e1, e2]
  rfl

/-- **C91**: the extractor. Take a prover that answers the verifier's random challenges and in the end outputs a folded witness with
coefficients at most `bound / 2`. If it succeeds for the folding challenges `ρ`, and still if any one of them is replaced by `b0 i`,
then the vectors `extract` computed from its outputs are witnesses of the statements, short, the first `2K - 1` below `b`.
Otherwise, for every other choice `w` of the verifier's coins outside of a set of at most
`(s + max(τ, |M|) + 2 b s) |F| ^ (n - 1)` of the `|F| ^ n` choices, and every choice of the replacements with which the prover succeeds
there, one of the vectors `collide` computed from the outputs of the two families of runs is a short nonzero kernel vector
of the commitment matrix. Nothing is assumed about the commitment matrix. -/
theorem C91_extractor [Fintype F] (rd : RingData (ZMod p) F C N τ) (P : Params) (hK : 1 ≤ P.K) (hb : 1 ≤ P.bSmall)
    (cs : ChallengeSet C) {red : ℕ → ℕ → ℤ} {s γ β : ℕ} (htab : Table rd red s γ) (hbd : Bounded rd cs s β) (hγ : 1 ≤ 4 * γ * β)
    (ccs : CCS (Fin N → F)) (scheme : Ajtai (Fin N → F)) (hS : SizesOK P ccs scheme)
    (ht : ccs.t = ccs.M.length) (hc : CharGt F (2 * P.bSmall)) (cms : List (LCCCS (Fin N → F)))
    (hr : ∀ st ∈ cms, st.r.length = ccs.s) (hv : ∀ st ∈ cms, st.v.length = τ) (hu : ∀ st ∈ cms, st.u.length = ccs.M.length)
    (strat : List F → List (Fin N → F)) (theta eta : List F → List (List (Fin N → F)))
    (hsh : ∀ w, FoldShape P ccs scheme cms (eta w)) (bound : Nat)
    (out : List F → (Fin (2 * P.K - 1) → Bytes cs.bytesNeeded) → Witness (Fin N → F) C)
    (ρ b0 : Fin (2 * P.K - 1) → Bytes cs.bytesNeeded) (w0 : List F) (hw0 : w0.length = 6 * P.K - 1 + ccs.s + ccs.s)
    (h0 : Forked cs (fun ρ => SucceedsWith rd P cs ccs scheme cms bound w0 (tapeProof P ccs.s strat theta eta w0) ρ (out w0 ρ)) ρ b0) :
    Extracted rd P ccs scheme cms (bound + 2 * ((2 * P.K - 1) * (γ * β * (P.bSmall - 1)) + (P.bSmall - 1)))
      (extract cs ρ b0 (out w0 ρ).fCoeff fun i => (out w0 (Function.update ρ i (b0 i))).fCoeff) ∨
    ∃ Z : Finset (Fin (6 * P.K - 1 + ccs.s + ccs.s) → F),
      Z.card ≤ (ccs.s + max τ ccs.M.length + ccs.s * (2 * P.bSmall)) * Fintype.card F ^ (6 * P.K - 1 + ccs.s + ccs.s - 1) ∧
      ∀ x ∉ Z, ∀ w, w = List.ofFn x → ∀ b,
        Forked cs (fun ρ => SucceedsWith rd P cs ccs scheme cms bound w (tapeProof P ccs.s strat theta eta w) ρ (out w ρ)) ρ b →
        ∃ k < 2 * P.K, KernelVec rd scheme (4 * γ * β * bound) (collide cs ρ b0 b
          (out w0 ρ).fCoeff (fun i => (out w0 (Function.update ρ i (b0 i))).fCoeff)
          (out w ρ).fCoeff (fun i => (out w (Function.update ρ i (b i))).fCoeff) k) := by
  classical
  have hlen : ∀ x : Fin (6 * P.K - 1 + ccs.s + ccs.s) → F, (List.ofFn x).length = 6 * P.K - 1 + ccs.s + ccs.s := fun w => by simp
  obtain ⟨st0, t0, W, h1, hg1, hg2, hg3, h2, hrho, hL, hex⟩ :=
    forked_extract rd P hK cs w0 ccs scheme hS ht cms _ (hsh w0) bound (out w0) ρ b0 h0
  have hpt0 := coin_point rd P hK cs _ w0 t0 ccs hS.sh.spos hw0 cms _ st0
      (fun v => strat (w0.take (6 * P.K - 1 + ccs.s) ++ v)) rfl h1
  set ws := (List.range (2 * P.K)).map W with hws
  have hwsl : ws.length = 2 * P.K := by simp [hws]
  have hwk : ∀ k wit, ws[k]? = some wit → k < 2 * P.K ∧ wit = W k := by
    intro k wit h
    have hk : k < 2 * P.K := by
      rw [← hwsl]
      exact (List.getElem?_eq_some_iff.1 h).1
    refine ⟨hk, ?_⟩
    rw [hws, List.getElem?_map, List.getElem?_range hk] at h
    exact (Option.some.inj h).symm
  have hcl : cms.length = 2 * P.K := (hsh []).cmsLen
  have hck : ∀ k st, cms[k]? = some st → ∀ z, cms.getD k z = st := by
    intro k st h z
    rw [List.getD_eq_getElem?_getD, h]
    rfl
  have hsz : FoldSizes rd P ccs cms ws := {
    cmLen := hcl
    wLen := hwsl
    hat := hS.hat
    wit := fun wit hm => by
      obtain ⟨k, hk, rfl⟩ := List.mem_map.1 hm
      exact (h2 k (List.mem_range.1 hk)).witOK
    r := hr
    v := hv
    u := hu }
  by_cases hviol : FoldViolated rd P ccs cms ws
  · right
    have hZ := C54_soundness_partial rd P hK hb cs ccs hS.sh cms ws hsz hc hviol (fun k n => (byteScript cs ρ k n, k + 1)) 0 strat
    refine ⟨_, hZ, ?_⟩
    rintro x hx w rfl b hf
    by_contra hno
    push Not at hno
    apply hx
    rw [mem_filter]
    refine ⟨mem_univ _, ?_⟩
    obtain ⟨st, t, W', g1, gg1, gg2, gg3, g2, grho, gL, gex⟩ :=
      forked_extract rd P hK cs (List.ofFn x) ccs scheme hS ht cms _ (hsh _) bound (out (List.ofFn x)) ρ b hf
    have hpt := coin_point rd P hK cs _ (List.ofFn x) t ccs hS.sh.spos (hlen x) cms _ st
      (fun v => strat ((List.ofFn x).take (6 * P.K - 1 + ccs.s) ++ v)) rfl g1
    have g0 := theta_len rd P hK cs _ _ _ t ccs cms _ st g1
    rw [hpt] at g2
    change (theta (List.ofFn x)).length = _ at g0
    have hgl : (out w0 ρ).fCoeff.length = scheme.matrix.ncols := by rw [hg1.witOK.flen, hS.width]
    have hgl' : (out (List.ofFn x) ρ).fCoeff.length = scheme.matrix.ncols := by rw [gg1.witOK.flen, hS.width]
    have heq1 : ∀ k < 2 * P.K - 1, (W' k).fCoeff = (W k).fCoeff := by
      intro k hk
      have hk2 : k < 2 * P.K := by omega
      by_contra hne
      apply hno k hk2
      obtain ⟨d1, d2, d3, d4⟩ := hrho ⟨k, hk⟩
      obtain ⟨e1, e2, e3, e4⟩ := grho ⟨k, hk⟩
      have hzl : (collide cs ρ b0 b
          (out w0 ρ).fCoeff (fun i => (out w0 (Function.update ρ i (b0 i))).fCoeff)
          (out (List.ofFn x) ρ).fCoeff (fun i => (out (List.ofFn x) (Function.update ρ i (b i))).fCoeff) k).length
          = scheme.matrix.ncols := by
        unfold collide
        rw [List.length_map, List.length_range, hgl]
      have hzj : ∀ j < scheme.matrix.ncols, (collide cs ρ b0 b
          (out w0 ρ).fCoeff (fun i => (out w0 (Function.update ρ i (b0 i))).fCoeff)
          (out (List.ofFn x) ρ).fCoeff (fun i => (out (List.ofFn x) (Function.update ρ i (b i))).fCoeff) k).getD j 0 =
          (chal cs (ρ ⟨k, hk⟩) - chal cs (b ⟨k, hk⟩)) * ((out w0 ρ).fCoeff.getD j 0
            - (out w0 (Function.update ρ ⟨k, hk⟩ (b0 ⟨k, hk⟩))).fCoeff.getD j 0)
          - (chal cs (ρ ⟨k, hk⟩) - chal cs (b0 ⟨k, hk⟩)) * ((out (List.ofFn x) ρ).fCoeff.getD j 0
            - (out (List.ofFn x) (Function.update ρ ⟨k, hk⟩ (b ⟨k, hk⟩))).fCoeff.getD j 0) := by
        intro j hj
        unfold collide
        rw [getD_range _ _ _ (by rw [hgl]; exact hj), dif_pos hk]
      obtain ⟨k1, k2⟩ := kernel_diff rd scheme (W k).fCoeff (W' k).fCoeff _ (by rw [(h2 k hk2).witOK.flen, hS.width])
        (by rw [(g2 k hk2).witOK.flen, hS.width]) hzl (Ne.symm hne)
        (claimed_commit rd P ccs scheme cms _ _ _ _ _ _ k _ _ (h2 k hk2) (g2 k hk2))
        ((chal cs (ρ ⟨k, hk⟩) - chal cs (b0 ⟨k, hk⟩)) * (chal cs (ρ ⟨k, hk⟩) - chal cs (b ⟨k, hk⟩))) (d3.mul e3)
        (by
          intro j hj
          rw [hzj j hj, ← d4 j, ← e4 j]
          ring)
      refine ⟨hzl, k1, k2, fun y hy i => ?_⟩
      obtain ⟨j, hj, rfl⟩ := List.getElem_of_mem hy
      have hj' := hzj j (by rw [← hzl]; exact hj)
      rw [List.getD_eq_getElem?_getD, List.getElem?_eq_getElem hj, Option.getD_some] at hj'
      rw [hj']
      obtain ⟨n, n1, n2⟩ := diff_mul_short rd cs htab hbd (2 * bound) _ _ _ _ _ (toList_length _) (toList_length _) e1 e2
        (fun i => by
          obtain ⟨n, n1, n2⟩ := diff_short rd hg2 (hg3 ⟨k, hk⟩).1 j i
          exact ⟨n, by omega, n2⟩) i
      obtain ⟨n', n1', n2'⟩ := diff_mul_short rd cs htab hbd (2 * bound) _ _ _ _ _ (toList_length _) (toList_length _) d1 d2
        (fun i => by
          obtain ⟨n, n1, n2⟩ := diff_short rd gg2 (gg3 ⟨k, hk⟩).1 j i
          exact ⟨n, by omega, n2⟩) i
      refine ⟨n - n', ?_, ?_⟩
      · rw [Nat.mul_div_cancel_left _ (by norm_num)] at n1 n1'
        have := Int.natAbs_sub_le n n'
        calc (n - n').natAbs ≤ γ * (2 * β) * bound + γ * (2 * β) * bound := by omega
          _ = _ := by ring
      · rw [map_sub, Pi.sub_apply, n2, n2']
        push_cast
        ring
    have hgg : (out (List.ofFn x) ρ).fCoeff = (out w0 ρ).fCoeff := by
      by_contra hne
      apply hno (2 * P.K - 1) (by omega)
      have hzl : (collide cs ρ b0 b
          (out w0 ρ).fCoeff (fun i => (out w0 (Function.update ρ i (b0 i))).fCoeff)
          (out (List.ofFn x) ρ).fCoeff (fun i => (out (List.ofFn x) (Function.update ρ i (b i))).fCoeff) (2 * P.K - 1)).length
          = scheme.matrix.ncols := by
        unfold collide
        rw [List.length_map, List.length_range, hgl]
      have hzj : ∀ j < scheme.matrix.ncols, (collide cs ρ b0 b
          (out w0 ρ).fCoeff (fun i => (out w0 (Function.update ρ i (b0 i))).fCoeff)
          (out (List.ofFn x) ρ).fCoeff (fun i => (out (List.ofFn x) (Function.update ρ i (b i))).fCoeff) (2 * P.K - 1)).getD j 0 =
          (out w0 ρ).fCoeff.getD j 0 - (out (List.ofFn x) ρ).fCoeff.getD j 0 := by
        intro j hj
        unfold collide
        rw [getD_range _ _ _ (by rw [hgl]; exact hj), dif_neg (lt_irrefl _)]
      obtain ⟨k1, k2⟩ := kernel_diff rd scheme (out w0 ρ).fCoeff (out (List.ofFn x) ρ).fCoeff _ hgl hgl' hzl (Ne.symm hne)
        (by
          have e1 := gg1.cm
          have e2 := hg1.cm
          rw [gg1.witOK.f] at e1
          rw [hg1.witOK.f] at e2
          rw [e1, e2, run_cm rd P hK cs ccs scheme ht cms _ _ _ _ _ _ _ (hsh _) (hsh _) _ _ g1 h1])
        1 isUnit_one (fun j hj => by rw [hzj j hj, one_mul])
      refine ⟨hzl, k1, k2, fun y hy i => ?_⟩
      obtain ⟨j, hj, rfl⟩ := List.getElem_of_mem hy
      have hj' := hzj j (by rw [← hzl]; exact hj)
      rw [List.getD_eq_getElem?_getD, List.getElem?_eq_getElem hj, Option.getD_some] at hj'
      rw [hj']
      obtain ⟨n, n1, n2⟩ := diff_short rd hg2 gg2 j i
      exact ⟨n, n1.trans (Nat.le_mul_of_pos_left _ hγ), n2⟩
    have heq : ∀ k < 2 * P.K, (W' k).fCoeff = (W k).fCoeff := by
      intro k hk
      by_cases hk' : k < 2 * P.K - 1
      · exact heq1 k hk'
      · have : k = 2 * P.K - 1 := by omega
        subst this
        apply ext_getD (g2 _ hk).witOK.flen (h2 _ hk).witOK.flen
        intro j _
        rw [gL j, hL j, hgg]
        congr 1
        apply sum_congr rfl
        intro i _
        rw [heq1 i i.2]
    have hwe : ∀ k (hk : k < 2 * P.K) x, _ := fun k hk x =>
      witOK_evals rd P (g2 k hk).witOK (h2 k hk).witOK (heq k hk) x
    refine ⟨_, st, t, g1, rfl, ?_, ?_⟩
    · change theta (List.ofFn x) = _
      rw [list_eq_range (theta (List.ofFn x)) [] g0, hws, List.map_map]
      apply List.map_congr_left
      intro k hk
      have hk := List.mem_range.1 hk
      have := (g2 k hk).evals.v
      change (theta (List.ofFn x)).getD k [] = (W' k).fHat.map _ at this
      rw [this]
      exact (hwe k hk _).2
    · change eta (List.ofFn x) = _
      rw [list_eq_range (eta (List.ofFn x)) [] (hsh _).etasLen, hws]
      have hcms : cms = (List.range (2 * P.K)).map fun k => cms.getD k ⟨[], [], ⟨[]⟩, [], [], 0⟩ := list_eq_range cms _ hcl
      conv_rhs => rw [hcms]
      rw [zipWith_map_self]
      apply List.map_congr_left
      intro k hk
      have hk := List.mem_range.1 hk
      have := (g2 k hk).evals.u
      change (eta (List.ofFn x)).getD k [] = _ at this
      rw [this, (hwe k hk []).1]
      rfl
  · left
    unfold FoldViolated at hviol
    push Not at hviol
    obtain ⟨n1, n2, n3⟩ := hviol
    have hwd : ∀ k < 2 * P.K, ws[k]? = some (W k) := by
      intro k hk
      rw [hws, List.getElem?_map, List.getElem?_range hk]
      rfl
    refine ⟨ws, hwsl, fun k st wit g1 g2 => ?_⟩
    obtain ⟨hk, rfl⟩ := hwk k wit g2
    have hh := h2 k hk
    refine ⟨hex k hk, ⟨hh.witOK, ?_, ?_, n1 k st _ g1 g2⟩, ?_, fun hk' => n2 k _ hk' g2, ?_⟩
    · have := hh.cm
      unfold claimed at this
      rw [hck k st g1] at this
      exact this
    · have := hh.xlen
      unfold claimed at this
      rw [hck k st g1] at this
      exact this
    · by_cases hk' : k < 2 * P.K - 1
      · exact slotSums_of_below rd _ _ (n2 k _ hk' g2)
      · have : k = 2 * P.K - 1 := by omega
        subst this
        exact n3 _ g2
    · by_cases hk' : k < 2 * P.K - 1
      · intro c hcm i
        obtain ⟨n, m1, m2⟩ := n2 k _ hk' g2 c hcm i
        refine ⟨n, ?_, m2⟩
        have : n.natAbs ≤ P.bSmall - 1 := by omega
        have := Nat.zero_le ((2 * P.K - 1) * (γ * β * (P.bSmall - 1)))
        omega
      · have : k = 2 * P.K - 1 := by omega
        subst this
        intro c hcm i
        obtain ⟨j, hj, rfl⟩ := List.mem_iff_getElem.1 hcm
        have e := hL j
        rw [List.getD_eq_getElem?_getD, List.getElem?_eq_getElem hj, Option.getD_some] at e
        rw [e]
        have hs := sub_comb_short rd cs htab hbd P.bSmall bound ((out w0 ρ).fCoeff.getD j 0) (fun i => by
            obtain ⟨n, m1, m2⟩ := getD_short rd hg2 j i
            exact ⟨n, m1, m2⟩)
          (fun k => if hk : k < 2 * P.K - 1 then chal cs (ρ ⟨k, hk⟩) else 0) (fun k => (W k).fCoeff.getD j 0)
          (2 * P.K - 1) (fun k hk => by
            rw [dif_pos hk]
            exact ⟨_, toList_length _, (hrho ⟨k, hk⟩).1⟩) (fun k hk i => by
            have hw := n2 k _ hk (hwd k (by omega))
            by_cases hjk : j < (W k).fCoeff.length
            · rw [List.getD_eq_getElem?_getD, List.getElem?_eq_getElem hjk, Option.getD_some]
              exact hw _ (List.getElem_mem _) i
            · rw [getD_out _ (by omega)]
              exact ⟨0, hb, by simp⟩) i
        obtain ⟨n, m1, m2⟩ := hs
        rw [Finset.sum_range] at m2
        simp only [Fin.is_lt, dif_pos, Fin.eta] at m2
        exact ⟨n, by omega, m2⟩

open Classical in
/-- **C91**: how often the extractor succeeds. Say that a choice `x` of the verifier's coins is heavy for the folding challenges `ρ` if
the prover succeeds, and for each of the challenges there are more than `T` replacements with which it still does. Let `n` be
the number of successful `(x, ρ)` minus `(2K - 1) (D + T) / 256 ^ l` of all `(x, ρ)`, and let `E` be the bound of `C54`, as a part of
all `(x, ρ)`. Then for at least `n (n - E)` out of all `(ρ, x0, x, ρ')`, both of `x0`, `x` are heavy for `ρ`, and the extractor, given any
replacements, computes witnesses of the statements or a short kernel vector. -/
theorem C91_count [Fintype F] (rd : RingData (ZMod p) F C N τ) (P : Params) (hK : 1 ≤ P.K) (hb : 1 ≤ P.bSmall)
    (cs : ChallengeSet C) {red : ℕ → ℕ → ℤ} {s γ β : ℕ} (htab : Table rd red s γ) (hbd : Bounded rd cs s β) (hγ : 1 ≤ 4 * γ * β)
    (ccs : CCS (Fin N → F)) (scheme : Ajtai (Fin N → F)) (hS : SizesOK P ccs scheme)
    (ht : ccs.t = ccs.M.length) (hc : CharGt F (2 * P.bSmall)) (cms : List (LCCCS (Fin N → F)))
    (hr : ∀ st ∈ cms, st.r.length = ccs.s) (hv : ∀ st ∈ cms, st.v.length = τ) (hu : ∀ st ∈ cms, st.u.length = ccs.M.length)
    (strat : List F → List (Fin N → F)) (theta eta : List F → List (List (Fin N → F)))
    (hsh : ∀ w, FoldShape P ccs scheme cms (eta w)) (bound D T : Nat)
    (hD : ∀ b : Bytes cs.bytesNeeded, (univ.filter fun b' => ¬ UnitPair cs b b').card ≤ D)
    (out : List F → (Fin (2 * P.K - 1) → Bytes cs.bytesNeeded) → Witness (Fin N → F) C)
    (S : (Fin (6 * P.K - 1 + ccs.s + ccs.s) → F) → (Fin (2 * P.K - 1) → Bytes cs.bytesNeeded) → Prop)
    (hSdef : ∀ x ρ, S x ρ ↔ SucceedsWith rd P cs ccs scheme cms bound (List.ofFn x) (tapeProof P ccs.s strat theta eta (List.ofFn x)) ρ
      (out (List.ofFn x) ρ))
    (pick : (Fin (6 * P.K - 1 + ccs.s + ccs.s) → F) → (Fin (2 * P.K - 1) → Bytes cs.bytesNeeded) → Fin (2 * P.K - 1) → Bytes cs.bytesNeeded)
    (hpick : ∀ x ρ, Heavy cs T (S x) ρ → Forked cs (S x) ρ (pick x ρ)) (n E : Nat)
    (hn : n = (univ.filter fun y : (Fin (6 * P.K - 1 + ccs.s + ccs.s) → F) × (Fin (2 * P.K - 1) → Bytes cs.bytesNeeded) => S y.1 y.2).card
      - (2 * P.K - 1) * ((D + T) * (Fintype.card F ^ (6 * P.K - 1 + ccs.s + ccs.s) * (256 ^ cs.bytesNeeded) ^ (2 * P.K - 1 - 1))))
    (hE : E = (ccs.s + max τ ccs.M.length + ccs.s * (2 * P.bSmall)) * Fintype.card F ^ (6 * P.K - 1 + ccs.s + ccs.s - 1)
      * (256 ^ cs.bytesNeeded) ^ (2 * P.K - 1)) :
    n * (n - E) ≤ (256 ^ cs.bytesNeeded) ^ (2 * P.K - 1) *
      (univ.filter fun q : (Fin (2 * P.K - 1) → Bytes cs.bytesNeeded) × (Fin (6 * P.K - 1 + ccs.s + ccs.s) → F) ×
          (Fin (6 * P.K - 1 + ccs.s + ccs.s) → F) =>
        Heavy cs T (S q.2.1) q.1 ∧ Heavy cs T (S q.2.2) q.1 ∧
        (Extracted rd P ccs scheme cms (bound + 2 * ((2 * P.K - 1) * (γ * β * (P.bSmall - 1)) + (P.bSmall - 1)))
            (extract cs q.1 (pick q.2.1 q.1) (out (List.ofFn q.2.1) q.1).fCoeff fun i =>
              (out (List.ofFn q.2.1) (Function.update q.1 i (pick q.2.1 q.1 i))).fCoeff) ∨
          ∃ k < 2 * P.K, KernelVec rd scheme (4 * γ * β * bound) (collide cs q.1 (pick q.2.1 q.1) (pick q.2.2 q.1)
            (out (List.ofFn q.2.1) q.1).fCoeff (fun i => (out (List.ofFn q.2.1) (Function.update q.1 i (pick q.2.1 q.1 i))).fCoeff)
            (out (List.ofFn q.2.2) q.1).fCoeff (fun i => (out (List.ofFn q.2.2) (Function.update q.1 i (pick q.2.2 q.1 i))).fCoeff)
            k))).card := by
  have hfc := fork_count S (UnitPair cs) D T hD
  rw [card_bytes, Fintype.card_fun, Fintype.card_fin] at hfc
  have hpc := pair_count (R := Fin (2 * P.K - 1) → Bytes cs.bytesNeeded) (fun x ρ => Heavy cs T (S x) ρ) (fun ρ x0 x =>
      Extracted rd P ccs scheme cms (bound + 2 * ((2 * P.K - 1) * (γ * β * (P.bSmall - 1)) + (P.bSmall - 1)))
          (extract cs ρ (pick x0 ρ) (out (List.ofFn x0) ρ).fCoeff fun i => (out (List.ofFn x0) (Function.update ρ i (pick x0 ρ i))).fCoeff) ∨
        ∃ k < 2 * P.K, KernelVec rd scheme (4 * γ * β * bound) (collide cs ρ (pick x0 ρ) (pick x ρ)
          (out (List.ofFn x0) ρ).fCoeff (fun i => (out (List.ofFn x0) (Function.update ρ i (pick x0 ρ i))).fCoeff)
          (out (List.ofFn x) ρ).fCoeff (fun i => (out (List.ofFn x) (Function.update ρ i (pick x ρ i))).fCoeff) k))
    ((ccs.s + max τ ccs.M.length + ccs.s * (2 * P.bSmall)) * Fintype.card F ^ (6 * P.K - 1 + ccs.s + ccs.s - 1)) n (by
      intro ρ x0 hx0
      have hS' : ∀ x, S x = fun ρ => SucceedsWith rd P cs ccs scheme cms bound (List.ofFn x) (tapeProof P ccs.s strat theta eta (List.ofFn x)) ρ
        (out (List.ofFn x) ρ) := fun x => funext fun ρ => propext (hSdef x ρ)
      have h0 := hpick x0 ρ hx0
      rw [hS'] at h0
      rcases C91_extractor rd P hK hb cs htab hbd hγ ccs scheme hS ht hc cms hr hv hu strat theta eta hsh bound out ρ (pick x0 ρ)
        (List.ofFn x0) (by simp) h0 with h | ⟨Z, hZ, h⟩
      · rw [card_eq_zero.2]
        · exact Nat.zero_le _
        · rw [filter_eq_empty_iff]
          intro x _ hx
          exact hx.2 (Or.inl h)
      · refine le_trans (card_le_card ?_) hZ
        intro x hx
        rw [mem_filter] at hx
        by_contra hxZ
        apply hx.2.2
        have h1 := hpick x ρ hx.2.1
        rw [hS'] at h1
        exact Or.inr (h x hxZ _ rfl _ h1)) (by
      rw [hn]
      refine Nat.sub_le_of_le_add (hfc.trans (Nat.add_le_add_right (card_le_card ?_) _))
      intro y hy
      rw [mem_filter] at hy ⊢
      exact hy)
  rw [Fintype.card_fun, card_bytes, Fintype.card_fin] at hpc
  rw [hE]
  exact hpc

end Norm

/-! ## A concrete case -/

section Examples

open Classical in
/-- For four statements over the field of 257 elements, with a commitment matrix that has a short kernel vector: there is a prover and
a choice of runs for which the extractor computes the witnesses or a short kernel vector. -/
example : ∃ (strat : List (ZMod 257) → List C257) (theta eta : List (ZMod 257) → List (List C257))
    (out : List (ZMod 257) → (Fin 3 → Bytes 1) → Witness C257 C257) (ρ b : Fin 3 → Bytes 1) (w w' : List (ZMod 257))
    (b' : Fin 3 → Bytes 1),
    SucceedsWith ring257 par257 cs257 ccs257 schemeC accsC 272 w (tapeProof par257 1 strat theta eta w) ρ (out w ρ) ∧
    (Extracted ring257 par257 ccs257 schemeC accsC 23252
        (extract cs257 ρ b (out w ρ).fCoeff fun i => (out w (Function.update ρ i (b i))).fCoeff) ∨
      ∃ k < 4, KernelVec ring257 schemeC 277440 (collide cs257 ρ b b' (out w ρ).fCoeff
        (fun i => (out w (Function.update ρ i (b i))).fCoeff) (out w' ρ).fCoeff
        (fun i => (out w' (Function.update ρ i (b' i))).fCoeff) k)) := by
  obtain ⟨strat, theta, eta, hsh, hsucc⟩ := C88_honest ring257 par257 cs257 ccs257 schemeC accsC witsC mzC par257_ok sizesC rfl
    inputC (charGt257 _ (by decide)) cs257_ok (fun _ _ _ _ _ _ => reach257 _)
  have hex : ∀ (w : List (ZMod 257)) (ρ : Fin 3 → Bytes 1), ∃ wit, w.length = 13 →
      SucceedsWith ring257 par257 cs257 ccs257 schemeC accsC 272 w (tapeProof par257 1 strat theta eta w) ρ wit := by
    intro w ρ
    by_cases hw : w.length = 13
    · obtain ⟨st, t, wit, h1, h2, h3⟩ := hsucc w ρ hw
      exact ⟨wit, fun _ => ⟨st, t, h1, h2, h3⟩⟩
    · exact ⟨wit257 0 0, fun h => absurd h hw⟩
  choose out hout using hex
  set S : (Fin 13 → ZMod 257) → (Fin 3 → Bytes 1) → Prop := fun x ρ => SucceedsWith ring257 par257 cs257 ccs257 schemeC accsC 272
    (List.ofFn x) (tapeProof par257 1 strat theta eta (List.ofFn x)) ρ (out (List.ofFn x) ρ) with hS
  obtain ⟨pick, hpick⟩ := exists_pick cs257 0 S
  have hall : (univ.filter fun y : (Fin 13 → ZMod 257) × (Fin 3 → Bytes 1) => S y.1 y.2).card = 257 ^ 13 * (256 ^ 1) ^ 3 := by
    rw [filter_true_of_mem (fun y _ => hout _ _ (by rw [List.length_ofFn])), card_univ, Fintype.card_prod, Fintype.card_fun,
      Fintype.card_fun, card_bytes, ZMod.card, Fintype.card_fin, Fintype.card_fin]
  have hr : ∀ st ∈ accsC, st.r.length = 1 ∧ st.v.length = 1 ∧ st.u.length = 3 := by
    intro st hst
    simp only [accsC, List.mem_cons, List.not_mem_nil, or_false] at hst
    rcases hst with rfl | rfl | rfl | rfl <;> exact ⟨rfl, rfl, rfl⟩
  have h := C91_count ring257 par257 (by decide) (by decide) cs257 table257 bounded257 (by decide) ccs257 schemeC sizesC rfl
    (charGt257 _ (by decide)) accsC (fun st h => (hr st h).1) (fun st h => (hr st h).2.1) (fun st h => (hr st h).2.2) strat theta eta
    hsh 272 1 0 (unit_le_one cs257 cs257_diff) out S (fun _ _ => Iff.rfl) pick hpick
    _ _ rfl rfl
  have hall' : (univ.filter fun y : (Fin (6 * par257.K - 1 + ccs257.s + ccs257.s) → ZMod 257) ×
      (Fin (2 * par257.K - 1) → Bytes cs257.bytesNeeded) => S y.1 y.2).card = 257 ^ 13 * (256 ^ 1) ^ 3 := hall
  rw [hall', ZMod.card] at h
  have e1 : par257.K = 2 := rfl
  have e2 : ccs257.s = 1 := rfl
  have e3 : cs257.bytesNeeded = 1 := rfl
  have e4 : ccs257.M.length = 3 := rfl
  have e5 : par257.bSmall = 16 := rfl
  have hpos := lt_of_lt_of_le (a := 0) (by simp only [e1, e2, e3, e4, e5]; norm_num) h
  obtain ⟨q, hq⟩ := card_pos.1 (pos_of_mul_pos_right hpos (Nat.zero_le _))
  rw [mem_filter] at hq
  have hq := hq.2
  have e6 : 272 + 2 * ((2 * par257.K - 1) * (1 * 255 * (par257.bSmall - 1)) + (par257.bSmall - 1)) = 23252 := by
    rw [e1, e5]
  have e7 : 4 * 1 * 255 * 272 = 277440 := by norm_num
  rw [e6, e7] at hq
  obtain ⟨h1, h2, h3⟩ := hq
  exact ⟨strat, theta, eta, out, q.1, pick q.2.1 q.1, List.ofFn q.2.1, List.ofFn q.2.2, pick q.2.2 q.1, h1.1, h3⟩

end Examples

end Verif.Props
