import Verif.Lemmas.DecExtract
import Verif.Props.Knowledge

/-!
# Property theorems for the extraction from decompositions: C89
-/

set_option linter.unusedSectionVars false
set_option linter.unusedSimpArgs false

namespace Verif.Props

open Finset Spec Verif Verif.Example

variable {Fp F C σ : Type} {N τ : Nat} [Field Fp] [Field F] [DecidableEq F] [Algebra Fp F] [CommRing C]
  [Algebra Fp C]

theorem dropLast_getLastD {R : Type} [CommRing R] {x : List R} (h : x ≠ []) : x.dropLast ++ [x.getLastD 0] = x := by
  rcases List.eq_nil_or_concat x with rfl | ⟨y, c, rfl⟩
  · exact absurd rfl h
  · simp

/-- What acceptance of a decomposition proof with `K` entries in all components says about piece `k`. -/
theorem dec_piece {R : Type} [CommRing R] [DecidableEq R] [Algebra F R] (P : Params) (T : Transcript F R σ) (s s' : σ)
    (cmi : LCCCS R) (proof : DecProof R) (l : List (LCCCS R)) (hd : decVerify P T s cmi proof = .ok (l, s'))
    (hx : proof.xS.length = P.K) (hy : proof.yS.length = P.K) (hu : proof.uS.length = P.K) (hv : proof.vS.length = P.K) :
    l.length = P.K ∧ ∀ (k : Nat) (st : LCCCS R), l[k]? = some st → k < P.K ∧ st.r = cmi.r ∧ st.v = proof.vS.getD k [] ∧
      st.cm = proof.yS.getD k ⟨[]⟩ ∧ st.u = proof.uS.getD k [] ∧ st.x_w ++ [st.h] = proof.xS.getD k [] := by
  rw [C31_verify_iff] at hd
  obtain ⟨-, -, -, -, -, hne, rfl, -⟩ := hd
  refine ⟨by simp [hx, hy, hu, hv], fun k st hst => ?_⟩
  have hk : k < P.K := by
    have := (List.getElem?_eq_some_iff.1 hst).1
    simpa [hx, hy, hu, hv] using this
  refine ⟨hk, ?_⟩
  have hx' : k < proof.xS.length := by omega
  have hy' : k < proof.yS.length := by omega
  have hu' : k < proof.uS.length := by omega
  have hv' : k < proof.vS.length := by omega
  have hz : (((proof.xS.zip proof.yS).zip proof.uS).zip proof.vS)[k]?
      = some (((proof.xS[k], proof.yS[k]), proof.uS[k]), proof.vS[k]) := by
    rw [List.getElem?_eq_getElem (by simp; omega)]
    simp
  rw [List.getElem?_map, hz] at hst
  have hst := Option.some.inj hst
  have hn := hne _ (List.mem_of_getElem? hz)
  subst hst
  refine ⟨rfl, ?_, ?_, ?_, ?_⟩
  · simp [List.getD_eq_getElem?_getD, hv']
  · simp [List.getD_eq_getElem?_getD, hy']
  · simp [List.getD_eq_getElem?_getD, hu']
  · rw [dropLast_getLastD hn]
    simp [List.getD_eq_getElem?_getD, hx']

/-- **C89**: if the decomposition verifier accepts a proof with `K` entries in each component, and the pieces have witnesses,
then so has the decomposed statement: `∑_k b^k W_k` opens its commitment and has the claimed evaluations. -/
theorem C89_recompose (rd : RingData Fp F C N τ) (P : Params) (hK : 1 ≤ P.K) (T : Transcript F (Fin N → F) σ) (s s' : σ)
    (ccs : CCS (Fin N → F)) (scheme : Ajtai (Fin N → F)) (hS : SizesOK P ccs scheme) (cmi : LCCCS (Fin N → F))
    (proof : DecProof (Fin N → F)) (l : List (LCCCS (Fin N → F))) (hd : decVerify P T s cmi proof = .ok (l, s'))
    (hx : proof.xS.length = P.K) (hy : proof.yS.length = P.K) (hu : proof.uS.length = P.K) (hv : proof.vS.length = P.K)
    (ws : List (Witness (Fin N → F) C)) (hws : ws.length = P.K)
    (hk : ∀ (k : Nat) (st : LCCCS (Fin N → F)) (wit : Witness (Fin N → F) C), l[k]? = some st → ws[k]? = some wit →
      LcccsHolds rd P ccs scheme st wit) :
    l.length = P.K ∧ ∃ wit : Witness (Fin N → F) C, LcccsHolds rd P ccs scheme cmi wit ∧
      ∀ j, wit.fCoeff.getD j 0 = ∑ k ∈ range P.K, (P.bSmall : C) ^ k * (ws.getD k ⟨[], [], [], []⟩).fCoeff.getD j 0 := by
  obtain ⟨hl, hp⟩ := dec_piece P T s s' cmi proof l hd hx hy hu hv
  refine ⟨hl, ?_⟩
  obtain ⟨-, ⟨-, -, y1, y2⟩, ⟨-, v1, -, v2⟩, ⟨-, u1, -, u2⟩, ⟨-, x1, -, x2⟩, -⟩ := (C31_verify_iff P T s s' cmi proof l).1 hd
  rw [hy, min_self] at y2
  rw [hv, min_self] at v2
  rw [hu, min_self] at u2
  rw [hx, min_self] at x2
  set z : LCCCS (Fin N → F) := ⟨[], [], ⟨[]⟩, [], [], 0⟩ with hzdef
  set S : Nat → LCCCS (Fin N → F) := fun k => l.getD k z with hSdef
  set W : Nat → Witness (Fin N → F) C := fun k => ws.getD k ⟨[], [], [], []⟩ with hWdef
  have hg1 : ∀ k < P.K, l[k]? = some (S k) := fun k hk' => by
    simp only [hSdef, List.getD_eq_getElem?_getD]
    rw [List.getElem?_eq_getElem (by omega)]
    rfl
  have hg2 : ∀ k < P.K, ws[k]? = some (W k) := fun k hk' => by
    simp only [hWdef, List.getD_eq_getElem?_getD]
    rw [List.getElem?_eq_getElem (by omega)]
    rfl
  have hh : ∀ k < P.K, LcccsHolds rd P ccs scheme (S k) (W k) := fun k hk' => hk k _ _ (hg1 k hk') (hg2 k hk')
  have hcml : ∀ k < P.K, (S k).cm.val.length = scheme.matrix.vals.length := by
    intro k hk'
    have := (hh k hk').cm
    rw [commit_ok scheme _ (by rw [(hh k hk').witOK.f, List.length_map, (hh k hk').witOK.flen, hS.width])] at this
    rw [← Except.ok.inj this]
    simp
  have hxl : ∀ k < P.K, ((S k).x_w ++ [(S k).h]).length = ccs.l + 1 := by
    intro k hk'
    rw [List.length_append, (hh k hk').xlen]
    rfl
  have hul : ∀ k < P.K, (S k).u.length = ccs.M.length := by
    intro k hk'
    rw [(hh k hk').evals.u, List.length_map]
  have hvl : ∀ k < P.K, (S k).v.length = τ := by
    intro k hk'
    rw [(hh k hk').evals.v, List.length_map, (hh k hk').witOK.hatlen]
  have h0 := hp 0 _ (hg1 0 (by omega))
  rw [← h0.2.2.2.1, hcml 0 (by omega)] at y1
  rw [← h0.2.2.1, hvl 0 (by omega)] at v1
  rw [← h0.2.2.2.2.1, hul 0 (by omega)] at u1
  rw [← h0.2.2.2.2.2, hxl 0 (by omega)] at x1
  have hfc := IsComb.mk' (K := P.K) (c := fun k => ((P.bSmall ^ k : Nat) : C)) (vs := fun k => (W k).fCoeff)
    fun k hk' => (hh k hk').witOK.flen
  refine ⟨_, lcccs_comb_nat rd P ccs scheme hS hK (fun k => P.bSmall ^ k) S W hh cmi (fun k hk' => (hp k _ (hg1 k hk')).2.1)
    ⟨⟨y1, hcml, fun j hj => ?_⟩, ⟨x1, hxl, fun j hj => ?_⟩, ⟨u1, hul, fun j hj => ?_⟩, ⟨v1, hvl, fun j hj => ?_⟩⟩ _ hfc, fun j => ?_⟩
  · rw [y2 j (by omega)]
    apply sum_congr rfl
    intro k hk'
    rw [(hp k _ (hg1 k (mem_range.1 hk'))).2.2.2.1]
    push_cast
    rfl
  · rw [x2 j (by omega)]
    apply sum_congr rfl
    intro k hk'
    rw [(hp k _ (hg1 k (mem_range.1 hk'))).2.2.2.2.2]
    push_cast
    rfl
  · rw [u2 j (by omega)]
    apply sum_congr rfl
    intro k hk'
    rw [(hp k _ (hg1 k (mem_range.1 hk'))).2.2.2.2.1]
    push_cast
    rfl
  · rw [v2 j (by omega)]
    apply sum_congr rfl
    intro k hk'
    rw [(hp k _ (hg1 k (mem_range.1 hk'))).2.2.1]
    push_cast
    rfl
  · have := hfc.eq_all j
    refine Eq.trans this ?_
    apply sum_congr rfl
    intro k _
    push_cast
    rfl

/-- Digits below `b`, the leading one below `A`, make a number below `b^(K-1) A`. -/
theorem digits_below (b : Nat) (hb : 1 ≤ b) (A : Nat) (n : Nat → ℤ) :
    ∀ K, (∀ k < K, (n k).natAbs < b) → (n K).natAbs < A → (∑ k ∈ range (K + 1), (b : ℤ) ^ k * n k).natAbs < b ^ K * A := by
  have key : ∀ K, (∀ k < K, (n k).natAbs < b) → (∑ k ∈ range K, (b : ℤ) ^ k * n k).natAbs < b ^ K := by
    intro K
    induction K with
    | zero => simp
    | succ K ih =>
      intro h
      rw [sum_range_succ]
      have h1 := ih fun k hk => h k (by omega)
      have h2 := h K (by omega)
      have h3 := Int.natAbs_add_le (∑ k ∈ range K, (b : ℤ) ^ k * n k) ((b : ℤ) ^ K * n K)
      rw [Int.natAbs_mul, Int.natAbs_pow, Int.natAbs_natCast] at h3
      have h4 : b ^ K * (n K).natAbs ≤ b ^ K * (b - 1) := Nat.mul_le_mul_left _ (by omega)
      rw [pow_succ]
      have h5 : b ^ K * b = b ^ K * (b - 1) + b ^ K := by
        obtain ⟨m, rfl⟩ := Nat.exists_eq_add_of_le hb
        rw [Nat.add_sub_cancel_left]
        ring
      omega
  intro K h1 h2
  rw [sum_range_succ]
  have h3 := Int.natAbs_add_le (∑ k ∈ range K, (b : ℤ) ^ k * n k) ((b : ℤ) ^ K * n K)
  rw [Int.natAbs_mul, Int.natAbs_pow, Int.natAbs_natCast] at h3
  have h4 : b ^ K * (n K).natAbs ≤ b ^ K * (A - 1) := Nat.mul_le_mul_left _ (by omega)
  have h5 : b ^ K * A = b ^ K * (A - 1) + b ^ K := by
    obtain ⟨m, rfl⟩ := Nat.exists_eq_add_of_le (show 1 ≤ A by omega)
    rw [Nat.add_sub_cancel_left]
    ring
  have := key K h1
  omega

/-- **C89**, norms: if the witnesses of the first `K - 1` pieces are below `b` and that of the last is below `A`, then the recomposed
witness is below `b^(K-1) A`; in particular below `b^K` if all are below `b`. -/
theorem C89_norm (rd : RingData Fp F C N τ) (P : Params) (hK : 1 ≤ P.K) (hb : 1 ≤ P.bSmall) (A : Nat)
    (ws : List (Witness (Fin N → F) C)) (hws : ws.length = P.K)
    (h1 : ∀ (k : Nat) (w : Witness (Fin N → F) C), k < P.K - 1 → ws[k]? = some w → WitBelow rd P.bSmall w)
    (h2 : ∀ w : Witness (Fin N → F) C, ws[P.K - 1]? = some w → WitBelow rd A w) (hA : 1 ≤ A)
    (wit : Witness (Fin N → F) C) (h : ∀ j, wit.fCoeff.getD j 0
      = ∑ k ∈ range P.K, (P.bSmall : C) ^ k * (ws.getD k ⟨[], [], [], []⟩).fCoeff.getD j 0) :
    WitBelow rd (P.bSmall ^ (P.K - 1) * A) wit := by
  intro c hc i
  obtain ⟨j, hj, rfl⟩ := List.mem_iff_getElem.1 hc
  have e := h j
  rw [List.getD_eq_getElem?_getD, List.getElem?_eq_getElem hj, Option.getD_some] at e
  have hdig : ∀ (B : Nat) (w : Witness (Fin N → F) C), 1 ≤ B → WitBelow rd B w →
      ∃ n : ℤ, n.natAbs < B ∧ rd.coeff (w.fCoeff.getD j 0) i = (n : Fp) := by
    intro B w hB hw
    by_cases hjk : j < w.fCoeff.length
    · rw [List.getD_eq_getElem?_getD, List.getElem?_eq_getElem hjk, Option.getD_some]
      exact hw _ (List.getElem_mem _) i
    · rw [getD_out _ (by omega)]
      exact ⟨0, by simpa using (show 0 < B from hB), by simp⟩
  have hex : ∀ k, ∃ n : ℤ, (k < P.K - 1 → n.natAbs < P.bSmall) ∧ (k = P.K - 1 → n.natAbs < A) ∧
      (k < P.K → rd.coeff ((ws.getD k ⟨[], [], [], []⟩).fCoeff.getD j 0) i = (n : Fp)) := by
    intro k
    by_cases hk : k < P.K
    · have hg : ws[k]? = some (ws.getD k ⟨[], [], [], []⟩) := by
        rw [List.getD_eq_getElem?_getD, List.getElem?_eq_getElem (by omega)]
        rfl
      by_cases hk' : k < P.K - 1
      · obtain ⟨n, n1, n2⟩ := hdig P.bSmall _ hb (h1 k _ hk' hg)
        exact ⟨n, fun _ => n1, fun h => absurd h (by omega), fun _ => n2⟩
      · have hk2 : k = P.K - 1 := by omega
        obtain ⟨n, n1, n2⟩ := hdig A (ws.getD k ⟨[], [], [], []⟩) hA (h2 _ (by rw [← hk2]; exact hg))
        exact ⟨n, fun h => absurd h hk', fun _ => n1, fun _ => n2⟩
    · exact ⟨0, fun h => absurd h (by omega), fun h => absurd h (by omega), fun h => absurd h hk⟩
  choose n n1 n2 n3 using hex
  refine ⟨∑ k ∈ range P.K, (P.bSmall : ℤ) ^ k * n k, ?_, ?_⟩
  · have := digits_below P.bSmall hb A n (P.K - 1) (fun k hk => n1 k hk) (n2 _ rfl)
    rwa [Nat.sub_add_cancel hK] at this
  · rw [e, map_sum, Finset.sum_apply]
    push_cast
    apply sum_congr rfl
    intro k hk
    rw [← n3 k (mem_range.1 hk), ← Nat.cast_pow, coeff_natCast_mul, Pi.smul_apply, smul_eq_mul]
    push_cast
    rfl

theorem below_of_short {rd : RingData Fp F C N τ} {B : Nat} {w : Witness (Fin N → F) C} (h : WitShort rd B w) :
    WitBelow rd (B / 2 + 1) w := by
  intro c hc i
  obtain ⟨n, n1, n2⟩ := h c hc i
  exact ⟨n, by omega, n2⟩

/-- **C89**, the number of entries matters: a proof with `K - 1` pieces and one more commitment is accepted for *every*
commitment `c` in the decomposed statement, although the witnesses of the pieces determine its commitment. The number of pieces
handed on to folding can be corrected by one more piece in the other decomposition, so comparing it with `2K` does not help. -/
theorem C89_free_commitment {R : Type} [CommRing R] [DecidableEq R] [Algebra F R] (P : Params) (hK : 2 ≤ P.K)
    (hb : ∀ k < P.K, P.bSmall ^ k < 2 ^ 128) (hu : IsUnit (P.bSmall : R)) (T : Transcript F R σ) (s : σ) (r : List R)
    (S : Nat → LCCCS R) (nv nu nx nc : Nat) (hr : ∀ k < P.K - 1, (S k).r = r) (hv : ∀ k < P.K - 1, (S k).v.length = nv)
    (hul : ∀ k < P.K - 1, (S k).u.length = nu) (hx : ∀ k < P.K - 1, (S k).x_w.length = nx)
    (hcl : ∀ k < P.K - 1, (S k).cm.val.length = nc) (c : Commitment R) (hc : c.val.length = nc) :
    ∃ proof s', decVerify P T s ⟨r,
        (List.range nv).map fun j => ∑ k ∈ range (P.K - 1), (P.bSmall : R) ^ k * (S k).v.getD j 0, c,
        (List.range nu).map fun j => ∑ k ∈ range (P.K - 1), (P.bSmall : R) ^ k * (S k).u.getD j 0,
        (List.range nx).map fun j => ∑ k ∈ range (P.K - 1), (P.bSmall : R) ^ k * (S k).x_w.getD j 0,
        ∑ k ∈ range (P.K - 1), (P.bSmall : R) ^ k * (S k).h⟩ proof = .ok ((List.range (P.K - 1)).map S, s') := by
  obtain ⟨n, hn⟩ : ∃ n, P.K = n + 2 := ⟨P.K - 2, by omega⟩
  have hn1 : P.K - 1 = n + 1 := by omega
  rw [hn1] at hr hv hul hx hcl ⊢
  set b : R := (P.bSmall : R) with hbdef
  obtain ⟨bi, hbi⟩ := hu.exists_right_inv
  have hgm : ∀ {α : Type} (f : Nat → α) (d : α) {k : Nat} {m : Nat}, k < m → ((List.range m).map f).getD k d = f k := by
    intro α f d k m hk
    simp [List.getD_eq_getElem?_getD, hk]
  set ylast : Commitment R := ⟨(List.range nc).map fun j =>
    bi ^ (n + 1) * (c.val.getD j 0 - ∑ k ∈ range (n + 1), b ^ k * (S k).cm.val.getD j 0)⟩ with hyl
  set Y : Nat → Commitment R := fun k => if k < n + 1 then (S k).cm else ylast with hY
  have hYk : ∀ k < n + 1, Y k = (S k).cm := fun k hk => if_pos hk
  set proof : DecProof R := ⟨(List.range (n + 1)).map fun k => (S k).u, (List.range (n + 1)).map fun k => (S k).v,
    (List.range (n + 1)).map fun k => (S k).x_w ++ [(S k).h], (List.range (n + 2)).map Y⟩ with hproof
  have hzip : ((proof.xS.zip proof.yS).zip proof.uS).zip proof.vS
      = (List.range (n + 1)).map fun k => ((((S k).x_w ++ [(S k).h], (S k).cm), (S k).u), (S k).v) := by
    apply List.ext_getElem
    · simp [hproof]
    intro k h1 h2
    have hk : k < n + 1 := by simpa using h2
    simp [hproof, hYk k hk]
  have hrec : ∀ (f : Nat → List R) (m : Nat), (∀ k < n + 1, (f k).length = m) →
      Recomposes b P.K ((List.range (n + 1)).map f) ((List.range m).map fun j => ∑ k ∈ range (n + 1), b ^ k * (f k).getD j 0) := by
    intro f m hf
    have hmin : min P.K (n + 1) = n + 1 := by omega
    refine ⟨by simp, ?_, ?_, ?_⟩
    · rw [hgm _ _ (by omega), hf 0 (by omega)]
      simp
    · intro k hk
      rw [List.length_map, List.length_range, hmin] at hk
      rw [hgm _ _ hk, hf k hk]
      simp
    · intro j hj
      rw [List.length_map, List.length_range] at hj
      rw [hgm _ _ hj, List.length_map, List.length_range, hmin]
      apply sum_congr rfl
      intro k hk
      rw [hgm _ _ (mem_range.1 hk)]
  refine ⟨proof, _, (C31_verify_iff P T s _ _ proof _).2 ⟨hb, ⟨by omega, by simp [hproof], ?_, ?_⟩, hrec _ nv hv, hrec _ nu hul, ?_, ?_, ?_, rfl⟩⟩
  · rw [hproof]
    simp only
    rw [hgm _ _ (by omega), hY]
    simp only
    rw [if_pos (by omega), hcl 0 (by omega), hc]
  · intro j hj
    have hj' : j < nc := by rw [← hc]; exact hj
    simp only [hproof, List.length_map, List.length_range]
    rw [hn, min_self, sum_range_succ, hgm _ _ (by omega)]
    have h1 : Y (n + 1) = ylast := by simp [hY]
    have h2 : ∑ k ∈ range (n + 1), b ^ k * (((List.range (n + 2)).map Y).getD k ⟨[]⟩).val.getD j 0
        = ∑ k ∈ range (n + 1), b ^ k * (S k).cm.val.getD j 0 := by
      apply sum_congr rfl
      intro k hk
      have hk := mem_range.1 hk
      rw [hgm _ _ (by omega), hYk k hk]
    rw [h1, h2, hyl]
    simp only
    rw [hgm _ _ hj', ← mul_assoc, ← mul_pow, hbi, one_pow, one_mul]
    ring
  · have := hrec (fun k => (S k).x_w ++ [(S k).h]) (nx + 1) (fun k hk => by rw [List.length_append, hx k hk]; rfl)
    refine (congrArg (Recomposes b P.K _) ?_).mp this
    rw [List.range_succ, List.map_append]
    congr 1
    · apply List.map_congr_left
      intro j hj
      apply sum_congr rfl
      intro k hk
      rw [List.getD_append _ _ _ _ (by rw [hx k (mem_range.1 hk)]; exact List.mem_range.1 hj)]
    · rw [List.map_singleton]
      congr 1
      apply sum_congr rfl
      intro k hk
      rw [List.getD_append_right _ _ _ _ (by rw [hx k (mem_range.1 hk)]), hx k (mem_range.1 hk), Nat.sub_self]
      rfl
  · intro p hp
    rw [hzip] at hp
    obtain ⟨k, -, rfl⟩ := List.mem_map.1 hp
    simp
  · rw [hzip, List.map_map]
    apply List.map_congr_left
    intro k hk
    have hk := List.mem_range.1 hk
    simp only [Function.comp]
    rw [List.dropLast_concat]
    have h2 : ((S k).x_w ++ [(S k).h]).getLastD 0 = (S k).h := by simp
    rw [h2, ← hr k hk]

section Examples

def dxPiece (k : Nat) : LCCCS C49 :=
  if k = 0 then accId49 ![⟨3, 1⟩] ![⟨1, 4⟩] ![⟨2, 0⟩] (wit49 ![⟨1, 0⟩] ![⟨0, 6⟩])
  else accId49 ![⟨3, 1⟩] ![⟨0, 1⟩] ![⟨1, 1⟩] (wit49 ![⟨0, 1⟩] ![⟨6, 6⟩])

/-- Two pieces with digits `1, -i` and `i, -1 - i` recompose to `1 + 2i, -2 - 3i`. -/
example (T : Transcript F49 C49 σ) (s : σ) :
    ∃ l s', decVerify par49 T s (accId49 ![⟨3, 1⟩] ![⟨1, 6⟩] ![⟨4, 2⟩] (wit49 ![⟨1, 2⟩] ![⟨5, 4⟩]))
        ⟨(List.range 2).map fun k => (dxPiece k).u, (List.range 2).map fun k => (dxPiece k).v,
          (List.range 2).map fun k => (dxPiece k).x_w ++ [(dxPiece k).h], (List.range 2).map fun k => (dxPiece k).cm⟩ = .ok (l, s') ∧
      ∃ wit, LcccsHolds ring49 par49 ccs49 schemeId49 (accId49 ![⟨3, 1⟩] ![⟨1, 6⟩] ![⟨4, 2⟩] (wit49 ![⟨1, 2⟩] ![⟨5, 4⟩])) wit ∧
        WitBelow ring49 4 wit := by
  obtain ⟨l, s', h⟩ := (C31_exact_pieces par49 T s (accId49 ![⟨3, 1⟩] ![⟨1, 6⟩] ![⟨4, 2⟩] (wit49 ![⟨1, 2⟩] ![⟨5, 4⟩]))
    (fun k => (dxPiece k).u) (fun k => (dxPiece k).v) (fun k => (dxPiece k).x_w ++ [(dxPiece k).h]) (fun k => (dxPiece k).cm)
    (by decide) (by decide) (by decide) (by decide) (by decide) (by decide)).2 (by decide +kernel)
  refine ⟨l, s', h, ?_⟩
  have hl := (C31_verify_iff par49 T s s' _ _ l).1 h
  obtain ⟨-, -, -, -, -, -, hl, -⟩ := hl
  have hl : l = [dxPiece 0, dxPiece 1] := hl
  obtain ⟨-, wit, h1, h2⟩ := C89_recompose ring49 par49 (by decide) T s s' ccs49 schemeId49 sizesId49 _ _ l h rfl rfl rfl rfl
    [wit49 ![⟨1, 0⟩] ![⟨0, 6⟩], wit49 ![⟨0, 1⟩] ![⟨6, 6⟩]] rfl (by
      intro k st wit h1 h2
      subst hl
      match k with
      | 0 => cases h1; cases h2; exact accId49_holds _ _ _ _ _
      | 1 => cases h1; cases h2; exact accId49_holds _ _ _ _ _
      | k + 2 => simp at h1)
  refine ⟨wit, h1, C89_norm ring49 par49 (by decide) (by decide) 2
    [wit49 ![⟨1, 0⟩] ![⟨0, 6⟩], wit49 ![⟨0, 1⟩] ![⟨6, 6⟩]] rfl ?_ ?_ (by decide) wit h2⟩
  · intro k w hk hw
    have hk : k = 0 := by
      have : k < 1 := hk
      omega
    subst hk
    cases hw
    exact below_of_short (wit49_small _ _ (by decide))
  · intro w hw
    cases hw
    exact below_of_short (wit49_small _ _ (by decide))

/-- With one piece (the zero statement, with the zero witness) and two commitments, a statement is accepted that has no
witness at all: its commitment is to `1, 0`, but all its evaluations are zero. -/
example (T : Transcript F49 C49 σ) (s : σ) :
    ∃ (cmi : LCCCS C49) (proof : DecProof C49) (st : LCCCS C49) (s' : σ), decVerify par49 T s cmi proof = .ok ([st], s') ∧
      LcccsHolds ring49 par49 ccs49 schemeId49 st (wit49 0 0) ∧ WitBelow ring49 par49.bSmall (wit49 0 0) ∧
      ¬ ∃ wit, LcccsHolds ring49 par49 ccs49 schemeId49 cmi wit := by
  obtain ⟨proof, s', h⟩ := C89_free_commitment par49 (by decide) (by decide)
    (IsUnit.of_mul_eq_one (4 : C49) (by decide +kernel)) T s [![⟨3, 1⟩]]
    (fun _ => accId49 ![⟨3, 1⟩] 0 0 (wit49 0 0)) 2 3 1 2 (by decide) (by decide) (by decide) (by decide) (by decide) ⟨[1, 0]⟩ rfl
  refine ⟨_, proof, _, s', h, accId49_holds _ _ _ _ _, below_of_short (wit49_small _ _ (by decide)), ?_⟩
  rintro ⟨wit, hw⟩
  have e1 := hw.cm
  have e3 : schemeId49.commit (wit49 1 0).f = .ok ⟨[1, 0]⟩ := by decide +kernel
  have h1 : wit.fCoeff = (wit49 1 0).fCoeff := by
    apply bindingId49 (fun _ => True) _ _ hw.witOK.flen rfl trivial trivial
    rw [← hw.witOK.f, e1]
    exact e3.symm
  have h2 := hw.evals.v
  rw [(witOK_evals ring49 par49 hw.witOK (mkWit_ok ring49 par49 (wl := 1) [1, 0] rfl) h1 _).2] at h2
  revert h2
  decide +kernel

end Examples

end Verif.Props
