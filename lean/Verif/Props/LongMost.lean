import Verif.Props.LongUnnoticed
import Verif.Model.BenchLines
import Verif.Lemmas.SecondMoment

/-!
# Almost every commitment goes unnoticed (C54)

`C54_any_commitment_unnoticed` assumes that every value of the base field is `b^(K-1) d + r` with a short `d`, which holds for a single shipped
parameter set. Here lists of opposite pairs with short entries are counted: for random matrices they have pairwise independent commitments, so
that almost all pairs of a matrix and a commitment are reached as soon as there are more such lists than commitments.
-/

set_option linter.unusedSectionVars false
set_option linter.unusedSimpArgs false

namespace Verif.Props

open Finset Verif Verif.Spec Verif.NormGrowth Verif.Poseidon

variable {σ : Type}

section Ring
variable {Fp F C : Type} {N τ : Nat} [Field Fp] [Field F] [DecidableEq F] [Algebra Fp F] [CommRing C]
  [Algebra Fp C]

/-- The commitment to one list of opposite pairs, as a function of the matrix. -/
def commitAt (rd : RingData Fp F C N τ) {n : Nat} (κ : Nat) (v : Fin n → Fin (τ / 2) → Fin N → Fp) :
    (Fin κ → Fin n → Fin N → F) →ₗ[Fp] (Fin κ × Fin (τ * N) → Fp) where
  toFun A := pairCommit rd A v
  map_add' A A' := by
    funext rq
    simp [pairCommit, add_mul, sum_add_distrib]
  map_smul' a A := by
    funext rq
    simp [pairCommit, ← smul_sum]

theorem commitAt_surj (rd : RingData Fp F C N τ) {n κ : Nat} {v : Fin n → Fin (τ / 2) → Fin N → Fp} {j : Fin n}
    (h : IsUnit (pairElem rd (v j))) : Function.Surjective (commitAt rd κ v) := by
  intro t
  obtain ⟨u, hu⟩ := h
  refine ⟨fun r j' => if j' = j then rd.crt (rd.coeff.symm (fun q => t (r, q)) * ↑u⁻¹) else 0, ?_⟩
  funext rq
  simp only [commitAt, pairCommit, LinearMap.coe_mk, AddHom.coe_mk]
  rw [Finset.sum_eq_single j]
  · rw [if_pos rfl, ← map_mul, ← hu, mul_assoc, Units.inv_mul, mul_one]
    simp
  · intro j' _ hj
    rw [if_neg hj, zero_mul]
  · simp

/-- Of the matrices a share `p^-(κ τ N)` maps a list with an invertible entry to zero. -/
theorem commitAt_zero [Fintype Fp] [Fintype F] (rd : RingData Fp F C N τ) {n κ : Nat} {v : Fin n → Fin (τ / 2) → Fin N → Fp} {j : Fin n}
    (h : IsUnit (pairElem rd (v j))) :
    Nat.card {A : Fin κ → Fin n → Fin N → F // pairCommit rd A v = 0} * Fintype.card (Fin κ × Fin (τ * N) → Fp) =
      Nat.card (Fin κ → Fin n → Fin N → F) := by
  rw [← card_ker_surj (commitAt rd κ v) (commitAt_surj rd h), Nat.card_eq_fintype_card (α := Fin κ × Fin (τ * N) → Fp)]
  rfl

/-- Combinations of neighbouring entries of a group that recompose to zero: at position `j` the factor of `e t` is `g i (j-1) t - B g i j t`. -/
def chainPairs {wl L' m : Nat} (B : Nat) (e : Fin m → Fin (τ / 2) → Fin N → Fp) (g : Fin wl → Fin L' → Fin m → Fp) :
    Fin (wl * (L' + 1)) → Fin (τ / 2) → Fin N → Fp :=
  fun q => ∑ t, ((Fin.cons 0 (g (finProdFinEquiv.symm q).1) : Fin (L' + 1) → Fin m → Fp) (finProdFinEquiv.symm q).2 t
    - B * (Fin.snoc (g (finProdFinEquiv.symm q).1) 0 : Fin (L' + 1) → Fin m → Fp) (finProdFinEquiv.symm q).2 t) • e t

theorem chainPairs_sub {wl L' m : Nat} (B : Nat) (e : Fin m → Fin (τ / 2) → Fin N → Fp) (g g' : Fin wl → Fin L' → Fin m → Fp) :
    chainPairs B e (g - g') = chainPairs B e g - chainPairs B e g' := by
  funext q
  simp only [chainPairs, Pi.sub_apply]
  rw [← sum_sub_distrib]
  refine sum_congr rfl fun t _ => ?_
  rw [← sub_smul]
  congr 1
  generalize (finProdFinEquiv.symm q).1 = i
  generalize (finProdFinEquiv.symm q).2 = j
  have h1 : (Fin.cons 0 (g i - g' i) : Fin (L' + 1) → Fin m → Fp) j t =
      (Fin.cons 0 (g i) : Fin (L' + 1) → Fin m → Fp) j t - (Fin.cons 0 (g' i) : Fin (L' + 1) → Fin m → Fp) j t := by
    refine Fin.cases ?_ (fun j => ?_) j <;> simp
  have h2 : (Fin.snoc (g i - g' i) 0 : Fin (L' + 1) → Fin m → Fp) j t =
      (Fin.snoc (g i) 0 : Fin (L' + 1) → Fin m → Fp) j t - (Fin.snoc (g' i) 0 : Fin (L' + 1) → Fin m → Fp) j t := by
    refine Fin.lastCases ?_ (fun j => ?_) j <;> simp
  rw [h1, h2]
  ring

theorem chainPairs_recomp {wl L' m : Nat} (B : Nat) (e : Fin m → Fin (τ / 2) → Fin N → Fp) (g : Fin wl → Fin L' → Fin m → Fp) :
    pairRecomp Fp _ wl (L' + 1) B (chainPairs B e g) = 0 := by
  funext i
  rw [pairRecomp_apply]
  simp only [chainPairs, Equiv.symm_apply_apply, smul_sum, smul_smul, Pi.zero_apply]
  rw [sum_comm]
  refine sum_eq_zero fun t _ => ?_
  rw [← sum_smul]
  have : ∑ j : Fin (L' + 1), (B : Fp) ^ j.val * ((Fin.cons 0 (g i) : Fin (L' + 1) → Fin m → Fp) j t
      - B * (Fin.snoc (g i) 0 : Fin (L' + 1) → Fin m → Fp) j t) = 0 := by
    simp only [mul_sub, sum_sub_distrib]
    rw [Fin.sum_univ_succ, Fin.sum_univ_castSucc (n := L')]
    simp only [Fin.cons_zero, Fin.cons_succ, Fin.snoc_last, Fin.snoc_castSucc, Pi.zero_apply, mul_zero, zero_add, add_zero]
    rw [sub_eq_zero]
    refine sum_congr rfl fun j _ => ?_
    simp only [Fin.val_succ, Fin.val_castSucc]
    ring
  rw [this, zero_smul]

theorem chainPairs_unit (rd : RingData Fp F C N τ) {wl L' m : Nat} {B : Nat} (hB : (B : Fp) ≠ 0) {e : Fin m → Fin (τ / 2) → Fin N → Fp}
    (he : UnitSpan rd e) {g : Fin wl → Fin L' → Fin m → Fp} (hg : g ≠ 0) : ∃ q, IsUnit (pairElem rd (chainPairs B e g q)) := by
  by_contra hno
  refine hg ?_
  have hz : ∀ i j, (fun t => (Fin.cons 0 (g i) : Fin (L' + 1) → Fin m → Fp) j t - B * (Fin.snoc (g i) 0 : Fin (L' + 1) → Fin m → Fp) j t) = 0 := by
    intro i j
    by_contra hne
    refine hno ⟨finProdFinEquiv (i, j), ?_⟩
    have := he _ hne
    simpa only [chainPairs, Equiv.symm_apply_apply] using this
  funext i ⟨k, hk⟩ t
  induction k with
  | zero =>
    have h1 := congrFun (hz i (Fin.castSucc ⟨0, hk⟩)) t
    have h2 : (Fin.castSucc (⟨0, hk⟩ : Fin L')) = 0 := rfl
    simp only [Fin.snoc_castSucc] at h1
    rw [h2] at h1
    simp only [Fin.cons_zero, Pi.zero_apply, zero_sub, neg_eq_zero, mul_eq_zero, hB, false_or] at h1
    exact h1
  | succ k ih =>
    have h1 := congrFun (hz i (Fin.castSucc ⟨k + 1, hk⟩)) t
    have h2 : (Fin.castSucc (⟨k + 1, hk⟩ : Fin L')) = Fin.succ ⟨k, by omega⟩ := rfl
    simp only [Fin.snoc_castSucc] at h1
    rw [h2] at h1
    have h3 := ih (by omega)
    simp only [Pi.zero_apply] at h3
    simp only [Fin.cons_succ, Pi.zero_apply, h3, zero_sub, neg_eq_zero, mul_eq_zero, hB, false_or] at h1
    exact h1

/-- The integers `-U … U`. -/
def centred (U : Nat) (u : Fin (2 * U + 1)) : ℤ := (u.val : ℤ) - U

theorem centred_abs (U : Nat) (u : Fin (2 * U + 1)) : (centred U u).natAbs ≤ U := by
  have := u.2
  unfold centred
  omega

theorem centred_inj {U : Nat} (hU : CharGt Fp (2 * U)) {u u' : Fin (2 * U + 1)} (h : ((centred U u : ℤ) : Fp) = (centred U u' : ℤ)) : u = u' := by
  have key : ∀ a b : Fin (2 * U + 1), a.val ≤ b.val → ((centred U a : ℤ) : Fp) = (centred U b : ℤ) → a = b := by
    intro a b hab hh
    by_contra hne
    have hlt : a.val < b.val := lt_of_le_of_ne hab fun hv => hne (Fin.ext hv)
    refine hU (b.val - a.val) (by omega) (by have := b.2; omega) ?_
    rw [Nat.cast_sub hab]
    simp only [centred] at hh
    push_cast at hh
    linear_combination -hh
  rcases le_total u.val u'.val with hl | hl
  · exact key _ _ hl h
  · exact (key _ _ hl h.symm).symm

/-- An integer divided with a rest of least absolute value. -/
theorem split_int {q M : Nat} (hq : Even q) (hq0 : 0 < q) {n : ℤ} (hn : 2 * n.natAbs < q * M) :
    ∃ d r : ℤ, n = q * d + r ∧ 2 * d.natAbs ≤ M ∧ 2 * r.natAbs ≤ q := by
  obtain ⟨h, rfl⟩ := hq
  set Q : ℤ := ((h + h : ℕ) : ℤ) with hQ
  have hQ0 : 0 < Q := by omega
  refine ⟨(n + h) / Q, (n + h) % Q - h, ?_, ?_, ?_⟩
  · have := Int.mul_ediv_add_emod (n + h) Q
    linarith
  · have h1 := Int.mul_ediv_add_emod (n + h) Q
    have h2 := Int.emod_nonneg (n + h) (ne_of_gt hQ0)
    have h3 := Int.emod_lt_of_pos (n + h) hQ0
    generalize (n + h) / Q = d at *
    generalize (n + h) % Q = r at *
    have hn1 : 2 * n < Q * M := by
      have : ((2 * n.natAbs : ℕ) : ℤ) < (((h + h) * M : ℕ) : ℤ) := by exact_mod_cast hn
      push_cast at this hQ
      rw [hQ]
      have := Int.le_natAbs (a := n)
      push_cast at *
      linarith
    have hn2 : -(2 * n) < Q * M := by
      have : ((2 * n.natAbs : ℕ) : ℤ) < (((h + h) * M : ℕ) : ℤ) := by exact_mod_cast hn
      push_cast at this hQ
      rw [hQ]
      have := Int.le_natAbs (a := -n)
      rw [Int.natAbs_neg] at this
      push_cast at *
      linarith
    have hQh : Q = 2 * h := by rw [hQ]; push_cast; ring
    have a1 : Q * (2 * d) < Q * (M + 1) := by nlinarith
    have a2 : Q * (-(M + 1)) < Q * (2 * d) := by nlinarith
    have b1 := lt_of_mul_lt_mul_left a1 hQ0.le
    have b2 := lt_of_mul_lt_mul_left a2 hQ0.le
    omega
  · have h2 := Int.emod_nonneg (n + h) (ne_of_gt hQ0)
    have h3 := Int.emod_lt_of_pos (n + h) hQ0
    omega

/-- The entries of the lists built from small integers are small integers. -/
theorem chainPairs_small {wl L' B U : Nat} (u : Fin wl → Fin L' → Fin (min τ N) → Fin (2 * U + 1)) (q : Fin (wl * (L' + 1))) (p : Fin (τ / 2)) (a : Fin N) :
    ∃ n : ℤ, n.natAbs ≤ (B + 1) * U ∧ chainPairs B (minPairs Fp N τ) (fun i j t => ((centred U (u i j t) : ℤ) : Fp)) q p a = n := by
  simp only [chainPairs]
  generalize (finProdFinEquiv.symm q).1 = i
  generalize (finProdFinEquiv.symm q).2 = j
  have h1 : ∀ t, ∃ n : ℤ, n.natAbs ≤ U ∧ (Fin.cons 0 (fun j t => ((centred U (u i j t) : ℤ) : Fp)) : Fin (L' + 1) → Fin (min τ N) → Fp) j t = n := by
    intro t
    refine Fin.cases ?_ (fun j => ?_) j
    · exact ⟨0, by simp, by simp⟩
    · exact ⟨_, centred_abs U (u i j t), by simp⟩
  have h2 : ∀ t, ∃ n : ℤ, n.natAbs ≤ U ∧ (Fin.snoc (fun j t => ((centred U (u i j t) : ℤ) : Fp)) 0 : Fin (L' + 1) → Fin (min τ N) → Fp) j t = n := by
    intro t
    refine Fin.lastCases ?_ (fun j => ?_) j
    · exact ⟨0, by simp, by simp⟩
    · exact ⟨_, centred_abs U (u i j t), by simp⟩
  rw [Finset.sum_apply, Finset.sum_apply]
  by_cases hpa : p.val = 0 ∧ a.val < min τ N
  · obtain ⟨n1, a1, b1⟩ := h1 ⟨a.val, hpa.2⟩
    obtain ⟨n2, a2, b2⟩ := h2 ⟨a.val, hpa.2⟩
    refine ⟨n1 - B * n2, ?_, ?_⟩
    · have e1 := Int.natAbs_sub_le n1 (B * n2)
      rw [Int.natAbs_mul, Int.natAbs_natCast] at e1
      have e2 := Nat.mul_le_mul_left B a2
      linarith [Nat.add_mul B 1 U, Nat.one_mul U]
    · rw [Finset.sum_eq_single ⟨a.val, hpa.2⟩]
      · simp only [Pi.smul_apply, smul_eq_mul, b1, b2, minPairs, hpa.1, true_and, if_true, mul_one]
        push_cast
        rfl
      · intro t _ ht
        have : ¬ (p.val = 0 ∧ a = (⟨t.val, lt_of_lt_of_le t.2 (min_le_right _ _)⟩ : Fin N)) := by
          rintro ⟨-, h⟩
          exact ht (Fin.ext (congrArg Fin.val h).symm)
        simp [minPairs, this]
      · simp
  · refine ⟨0, by simp, ?_⟩
    rw [Int.cast_zero]
    refine sum_eq_zero fun t _ => ?_
    have : ¬ (p.val = 0 ∧ a = (⟨t.val, lt_of_lt_of_le t.2 (min_le_right _ _)⟩ : Fin N)) := by
      rintro ⟨h0, h⟩
      exact hpa ⟨h0, by rw [h]; exact t.2⟩
    simp [minPairs, this]

/-- The list of opposite pairs for small integers. -/
def smallPairs (Fp : Type) [Field Fp] (N τ B U : Nat) {wl L' : Nat} (u : Fin wl → Fin L' → Fin (min τ N) → Fin (2 * U + 1)) :
    Fin (wl * (L' + 1)) → Fin (τ / 2) → Fin N → Fp :=
  chainPairs B (minPairs Fp N τ) fun i j t => ((centred U (u i j t) : ℤ) : Fp)

theorem smallPairs_collide [Fintype Fp] [Fintype F] (rd : RingData Fp F C N τ) (hτ : 2 ≤ τ) (hu : IsUnit (1 - rd.X ^ N)) {κ wl L' B U : Nat}
    (hB : (B : Fp) ≠ 0) (hU : CharGt Fp (2 * U)) {u u' : Fin wl → Fin L' → Fin (min τ N) → Fin (2 * U + 1)} (hne : u ≠ u') :
    Nat.card {A : Fin κ → Fin (wl * (L' + 1)) → Fin N → F // pairCommit rd A (smallPairs Fp N τ B U u) = pairCommit rd A (smallPairs Fp N τ B U u')}
      * Fintype.card (Fin κ × Fin (τ * N) → Fp) = Nat.card (Fin κ → Fin (wl * (L' + 1)) → Fin N → F) := by
  have hg : (fun i j t => ((centred U (u i j t) : ℤ) : Fp)) - (fun i j t => ((centred U (u' i j t) : ℤ) : Fp)) ≠ 0 := by
    intro h
    refine hne ?_
    funext i j t
    have := congrFun (congrFun (congrFun h i) j) t
    simp only [Pi.sub_apply, Pi.zero_apply, sub_eq_zero] at this
    exact centred_inj hU this
  obtain ⟨q, hq⟩ := chainPairs_unit rd hB (unitSpan_minPairs rd hτ hu) hg
  rw [← commitAt_zero rd hq]
  congr 1
  refine Nat.card_congr (Equiv.subtypeEquivRight fun A => ?_)
  rw [chainPairs_sub, map_sub, sub_eq_zero]
  rfl

/-- The pairs of a matrix and a commitment that no list of small opposite pairs reaches. -/
theorem unreached_count [Fintype Fp] [Fintype F] [DecidableEq Fp] (rd : RingData Fp F C N τ) (hτ : 2 ≤ τ) (hu : IsUnit (1 - rd.X ^ N))
    (κ wl L' B U : Nat) (hB : (B : Fp) ≠ 0) (hU : CharGt Fp (2 * U)) :
    (univ.filter fun p : (Fin κ → Fin (wl * (L' + 1)) → Fin N → F) × (Fin κ × Fin (τ * N) → Fp) =>
        ∀ u : Fin wl → Fin L' → Fin (min τ N) → Fin (2 * U + 1), pairCommit rd p.1 (smallPairs Fp N τ B U u) ≠ p.2).card
      * (2 * U + 1) ^ (wl * L' * min τ N) ≤
    Fintype.card Fp ^ (κ * (τ * N)) * Nat.card ((Fin κ → Fin (wl * (L' + 1)) → Fin N → F) × (Fin κ × Fin (τ * N) → Fp)) := by
  have h := missed_count (U := Fin wl → Fin L' → Fin (min τ N) → Fin (2 * U + 1))
    (fun (A : Fin κ → Fin (wl * (L' + 1)) → Fin N → F) u => pairCommit rd A (smallPairs Fp N τ B U u)) (by
      intro u u' hne
      have := smallPairs_collide (κ := κ) rd hτ hu hB hU hne
      rw [Nat.card_eq_fintype_card, Nat.card_eq_fintype_card, Fintype.card_subtype] at this
      exact this.le)
  have c1 : Fintype.card (Fin wl → Fin L' → Fin (min τ N) → Fin (2 * U + 1)) = (2 * U + 1) ^ (wl * L' * min τ N) := by
    simp only [Fintype.card_fun, Fintype.card_fin, ← pow_mul]
    congr 1
    ring
  have c2 : Fintype.card (Fin κ × Fin (τ * N) → Fp) = Fintype.card Fp ^ (κ * (τ * N)) := by
    simp only [Fintype.card_fun, Fintype.card_prod, Fintype.card_fin]
  rw [c1, c2] at h
  rw [Nat.card_eq_fintype_card]
  exact h

/-- What has to be added to the commitment of `w` to make it `y`, by its coefficients. -/
def commitGap (rd : RingData Fp F C N τ) {κ n : Nat} (A : Fin κ → Fin n → Fin N → F) (w : Witness (Fin N → F) C) (y : Fin κ → Fin N → F) :
    Fin κ × Fin (τ * N) → Fp :=
  fun rq => rd.coeff (rd.crt.symm (y rq.1 - dot (List.ofFn (A rq.1)) w.f)) rq.2

theorem commitGap_inj (rd : RingData Fp F C N τ) {κ n : Nat} (A : Fin κ → Fin n → Fin N → F) (w : Witness (Fin N → F) C) {y y' : Fin κ → Fin N → F}
    (h : commitGap rd A w y = commitGap rd A w y') : y = y' := by
  funext r
  have h1 : rd.coeff (rd.crt.symm (y r - dot (List.ofFn (A r)) w.f)) = rd.coeff (rd.crt.symm (y' r - dot (List.ofFn (A r)) w.f)) := by
    funext q
    exact congrFun h (r, q)
  have h2 := rd.crt.symm.injective (rd.coeff.injective h1)
  exact sub_left_injective h2

/-- **C54**, almost every commitment, unnoticed. Let `1 - X^N` be invertible and let `w` satisfy the constraint system with the public input `x`, with
coefficients bounded by `R₀ / 2`, where `b^(K-1) + R₀` fits in `K - 1` digits. Let combinations with a last element bounded by `M / 2` fit in
`K` digits, and let `2 (B + 1) U < b^(K-1) M`. Of the pairs of a matrix with `κ` rows and a commitment `y` all but a fraction
`p^(κ τ N) / (2 U + 1)^(|w| (L - 1) min(τ, N))` are such that the verifier accepts a step from `(y, x)`, for every transcript
and every valid accumulator, with a result that is valid and in range, as after an honest step. -/
theorem C54_most_commitments_unnoticed [Fintype Fp] [Fintype F] (rd : RingData Fp F C N τ) (hτ : 2 ≤ τ) (hu : IsUnit (1 - rd.X ^ N)) (P : Params)
    (cs : ChallengeSet C) (ccs : CCS (Fin N → F)) (x : List (Fin N → F)) (w : Witness (Fin N → F) C) (κ : Nat)
    (hP : ParamsOK Fp P) (hB : (P.B : Fp) ≠ 0) (hS : LinShape ccs) (hnl : ccs.l + 1 < ccs.n)
    (hhat : Nat.clog 2 ((ccs.n - ccs.l - 1) * P.L) = ccs.s) (ht : ccs.t = ccs.M.length) (al : Aligned ccs)
    (hc : CharGt F (2 * P.bSmall)) (hd : CharGt F (ccs.d + 1))
    (hcs : ∀ bs, bs.length = cs.bytesNeeded → ∃ c, cs.decode bs = .ok c) (hK : 2 ≤ P.K)
    {M R₀ U : Nat} (hN : NormLast rd P cs M) (hU : CharGt Fp (2 * U)) (hM : 2 * ((P.B + 1) * U) < P.bSmall ^ (P.K - 1) * M)
    (hR : P.bSmall ^ (P.K - 1) + R₀ ≤ reach P.bSmall (P.K - 1))
    (hw : WitOK rd P (ccs.n - ccs.l - 1) w) (hx : x.length = ccs.l) (hsat : CCSHolds ccs ((x ++ [1]) ++ w.wCcs))
    (hws : WitShort rd R₀ w) :
    ∃ Bad : Finset ((Fin κ → Fin ((ccs.n - ccs.l - 1) * P.L) → Fin N → F) × (Fin κ → Fin N → F)),
      Bad.card * (2 * U + 1) ^ ((ccs.n - ccs.l - 1) * (P.L - 1) * min τ N) ≤ Fintype.card Fp ^ (κ * (τ * N)) *
        Nat.card ((Fin κ → Fin ((ccs.n - ccs.l - 1) * P.L) → Fin N → F) × (Fin κ → Fin N → F)) ∧
      ∀ A y, (A, y) ∉ Bad →
        ∀ (T : Transcript F (Fin N → F) σ) (s : σ) (acc : LCCCS (Fin N → F)) (wAcc : Witness (Fin N → F) C),
          (∀ s n, (T.bytes s n).1.length = n) →
          LcccsHolds rd P ccs ⟨⟨κ, (ccs.n - ccs.l - 1) * P.L, matRows A⟩⟩ acc wAcc → WitShort rd (reach P.bSmall P.K) wAcc →
          ∃ proof st w'' s', nifsVerify rd P cs T s acc ⟨⟨List.ofFn y⟩, x⟩ proof ccs = .ok (st, s') ∧
            LcccsHolds rd P ccs ⟨⟨κ, (ccs.n - ccs.l - 1) * P.L, matRows A⟩⟩ st w'' ∧ WitShort rd (reach P.bSmall P.K) w'' := by
  classical
  have hb2 := hP.b2
  obtain ⟨wl, hwl⟩ : ∃ wl, wl = ccs.n - ccs.l - 1 := ⟨_, rfl⟩
  obtain ⟨L', hL'⟩ : ∃ L', P.L = L' + 1 := ⟨P.L - 1, by have := hP.Lpos; omega⟩
  have hqF : ((P.bSmall ^ (P.K - 1) : Nat) : F) ≠ 0 := by
    rw [Nat.cast_pow]
    exact pow_ne_zero _ (hc P.bSmall (by omega) (by omega))
  have hqp : ((P.bSmall ^ (P.K - 1) : Nat) : Fp) ≠ 0 := by
    intro h
    apply hqF
    rw [← map_natCast (algebraMap Fp F), h, map_zero]
  have hqeven : Even (P.bSmall ^ (P.K - 1)) := hP.bEven.pow_of_ne_zero (by omega)
  have hqpos : 0 < P.bSmall ^ (P.K - 1) := Nat.pow_pos (by omega)
  set reached : (Fin κ → Fin (wl * (L' + 1)) → Fin N → F) → (Fin κ × Fin (τ * N) → Fp) → Prop := fun A t =>
    ∃ u : Fin wl → Fin L' → Fin (min τ N) → Fin (2 * U + 1), pairCommit rd A (smallPairs Fp N τ P.B U u) = t with hre
  rw [← hwl, hL', Nat.add_sub_cancel]
  refine ⟨univ.filter fun p => ¬ reached p.1 (commitGap rd p.1 w p.2), ?_, ?_⟩
  · have h1 := unreached_count rd hτ hu κ wl L' P.B U hB hU
    have h2 : (univ.filter fun p : (Fin κ → Fin (wl * (L' + 1)) → Fin N → F) × (Fin κ → Fin N → F) =>
        ¬ reached p.1 (commitGap rd p.1 w p.2)).card ≤
        (univ.filter fun p : (Fin κ → Fin (wl * (L' + 1)) → Fin N → F) × (Fin κ × Fin (τ * N) → Fp) =>
          ∀ u : Fin wl → Fin L' → Fin (min τ N) → Fin (2 * U + 1), pairCommit rd p.1 (smallPairs Fp N τ P.B U u) ≠ p.2).card := by
      refine card_le_card_of_injOn (fun p => (p.1, commitGap rd p.1 w p.2)) ?_ ?_
      · intro p hp
        have hp := (mem_filter.1 (mem_coe.1 hp)).2
        refine mem_coe.2 (mem_filter.2 ⟨mem_univ _, fun u hu => hp ⟨u, hu⟩⟩)
      · rintro ⟨A, y⟩ - ⟨A', y'⟩ - h
        simp only [Prod.mk.injEq] at h
        obtain ⟨rfl, h⟩ := h
        rw [commitGap_inj rd A w h]
    have h3 : Nat.card (Fin κ × Fin (τ * N) → Fp) = Nat.card (Fin κ → Fin N → F) :=
      Nat.card_congr ((Equiv.curry _ _ _).trans (Equiv.piCongrRight fun _ => (rd.coeff.symm.toEquiv.trans rd.crt.toEquiv)))
    rw [Nat.card_prod] at h1 ⊢
    rw [h3] at h1
    exact le_trans (Nat.mul_le_mul_right _ h2) h1
  · intro A y hA T s acc wAcc hT hacc hsh
    have hr : reached A (commitGap rd A w y) := by
      by_contra h
      exact hA (mem_filter.2 ⟨mem_univ _, h⟩)
    obtain ⟨u, hu'⟩ := hr
    have hSz : SizesOK P ccs (⟨⟨κ, wl * (L' + 1), matRows A⟩⟩ : Ajtai (Fin N → F)) := by
      refine ⟨hS, hnl, hhat, ⟨by simp [matRows], ?_⟩, by rw [← hwl, hL']⟩
      intro row hrow
      obtain ⟨r, rfl⟩ := (List.mem_ofFn' _ _).1 hrow
      simp
    obtain ⟨q, hq⟩ : ∃ q : Nat, q = P.bSmall ^ (P.K - 1) := ⟨_, rfl⟩
    rw [← hq] at hqp hqF hqeven hqpos hM
    have key : ∃ v : Fin ((ccs.n - ccs.l - 1) * P.L) → Fin (τ / 2) → Fin N → Fp,
        pairMap rd (matRows A) ((ccs.n - ccs.l - 1) * P.L) (ccs.n - ccs.l - 1) P.L P.B v = (pairTarget rd q (matRows A) w ⟨List.ofFn y⟩, 0) ∧
        ∀ i p a, ∃ d r : Fp, (q : Fp) * v i p a = (q : Fp) * d + r ∧ Short M d ∧ Short q r := by
      rw [← hwl, hL']
      refine ⟨(q : Fp)⁻¹ • smallPairs Fp N τ P.B U u, ?_, ?_⟩
      · refine pairMap_matRows rd P.B A ?_ ?_
        · rw [map_smul, smallPairs, chainPairs_recomp, smul_zero]
        · intro i hi a
          rw [map_smul, hu']
          have e1 : (List.ofFn y).getD i.val 0 = y ⟨i.val, hi⟩ := by simp [List.getD_eq_getElem?_getD, hi]
          have e2 : (matRows A).getD i.val [] = List.ofFn (A ⟨i.val, hi⟩) := by simp [matRows, List.getD_eq_getElem?_getD, hi]
          simp only [pairTarget, commitGap, Pi.smul_apply, e1, e2]
          have e3 : (fun a => (q : F)⁻¹ * (y ⟨i.val, hi⟩ a - dot (List.ofFn (A ⟨i.val, hi⟩)) w.f a)) =
              (q : Fp)⁻¹ • (y ⟨i.val, hi⟩ - dot (List.ofFn (A ⟨i.val, hi⟩)) w.f) := by
            funext a
            rw [Pi.smul_apply, Algebra.smul_def, map_inv₀, map_natCast, Pi.sub_apply]
          rw [e3, map_smul, map_smul, Pi.smul_apply]
      · intro i p a
        obtain ⟨n, hn, hn'⟩ := chainPairs_small (Fp := Fp) (B := P.B) u i p a
        obtain ⟨d, r, h1, h2, h3⟩ := split_int (M := M) hqeven hqpos (n := n) (by omega)
        refine ⟨d, r, ?_, ⟨d, h2, rfl⟩, ⟨r, h3, rfl⟩⟩
        rw [Pi.smul_apply, Pi.smul_apply, Pi.smul_apply, smul_eq_mul, ← mul_assoc, mul_inv_cancel₀ hqp, one_mul, smallPairs, hn', h1]
        push_cast
        rfl
    obtain ⟨v, hv, hsp⟩ := key
    rw [hq] at hv hsp
    obtain ⟨proof, st, w'', s', h1, h2, h3, -⟩ := unnoticed_of_pairs rd P cs ccs _ x w hP hSz ht al hc hd hcs hK hN hR hw hx hsat hws
      ⟨List.ofFn y⟩ (by simp [matRows]) v hv hsp T s acc wAcc hT hacc hsh
    exact ⟨proof, st, w'', s', h1, h2, h3⟩

end Ring

section Shipped

/-- The room for the last piece: what the `2 K - 1` other pieces leave, if a challenge stretches by at most `c`. -/
def lastRoom (P : Params) (c : Nat) : Nat := reach P.bSmall P.K - P.bSmall * ((2 * P.K - 1) * c)

/-- The size of the integers for which `C54_most_commitments_unnoticed` applies then. -/
def pairRoom (P : Params) (c : Nat) : Nat := (P.bSmall ^ (P.K - 1) * lastRoom P c - 1) / (2 * (P.B + 1))

/-- What the arithmetic of a parameter set has to satisfy. -/
def RoomOK (p c : Nat) (P : Params) : Prop :=
  P.bSmall = 2 ∧ 2 ≤ P.K ∧ P.bSmall * ((2 * P.K - 1) * c) ≤ reach P.bSmall P.K ∧ 2 * pairRoom P c < p ∧
    2 * ((P.B + 1) * pairRoom P c) < P.bSmall ^ (P.K - 1) * lastRoom P c ∧
    P.bSmall ^ (P.K - 1) + (2 ^ (P.K - 1) - 2) ≤ reach P.bSmall (P.K - 1) ∧ P.B % p ≠ 0

/-- Of the pairs of a matrix with `κ` rows and a commitment, all but a share `2^-128` have the following property for the public input `x`, which
has a satisfying witness `w` with coefficients of absolute value below `2^(K-2)`, whatever its commitment is: the verifier accepts a step from
this commitment and `x`, for every transcript and every valid accumulator in range, and the result is valid and in range. -/
def MostUnnoticed (σ : Type) {Fp F C : Type} {N τ : Nat} [Field Fp] [Field F] [DecidableEq F] [Algebra Fp F] [CommRing C] [Algebra Fp C]
    (rd : RingData Fp F C N τ) (cs : ChallengeSet C) (p : Nat) (l : BenchLine) : Prop :=
  ∀ (ccs : CCS (Fin N → F)) (x : List (Fin N → F)) (w : Witness (Fin N → F) C), LinShape ccs → ccs.n = ccs.l + 1 + l.witLen →
    Nat.clog 2 (l.witLen * l.P.L) = ccs.s → ccs.t = ccs.M.length → Aligned ccs → ccs.d + 1 < p →
    WitOK rd l.P l.witLen w → x.length = ccs.l → CCSHolds ccs ((x ++ [1]) ++ w.wCcs) → WitShort rd (2 ^ (l.P.K - 1) - 2) w →
    ∃ Bad : Finset ((Fin l.kappa → Fin (l.witLen * l.P.L) → Fin N → F) × (Fin l.kappa → Fin N → F)),
      Bad.card * 2 ^ 128 ≤ Nat.card ((Fin l.kappa → Fin (l.witLen * l.P.L) → Fin N → F) × (Fin l.kappa → Fin N → F)) ∧
      ∀ A y, (A, y) ∉ Bad →
        ∀ (T : Transcript F (Fin N → F) σ) (s : σ) (acc : LCCCS (Fin N → F)) (wAcc : Witness (Fin N → F) C),
          (∀ s n, (T.bytes s n).1.length = n) →
          LcccsHolds rd l.P ccs ⟨⟨l.kappa, l.witLen * l.P.L, matRows A⟩⟩ acc wAcc → WitShort rd (reach l.P.bSmall l.P.K) wAcc →
          ∃ proof st w'' s', nifsVerify rd l.P cs T s acc ⟨⟨List.ofFn y⟩, x⟩ proof ccs = .ok (st, s') ∧
            LcccsHolds rd l.P ccs ⟨⟨l.kappa, l.witLen * l.P.L, matRows A⟩⟩ st w'' ∧ WitShort rd (reach l.P.bSmall l.P.K) w''

theorem share_of {a b c d q : Nat} (h0 : 0 < q) (h1 : a * b ≤ q * c) (h2 : q * d ≤ b) : a * d ≤ c := by
  refine Nat.le_of_mul_le_mul_left ?_ h0
  calc q * (a * d) = a * (q * d) := by ring
    _ ≤ a * b := Nat.mul_le_mul_left _ h2
    _ ≤ q * c := h1

theorem mostUnnoticed_of {p c : Nat} [Fact p.Prime] {F C : Type} {N τ : Nat} [Field F] [Fintype F] [DecidableEq F] [Algebra (ZMod p) F]
    [CommRing C] [Algebra (ZMod p) C] (rd : RingData (ZMod p) F C N τ) (cs : ChallengeSet C) (l : BenchLine) (hτ : 2 ≤ τ)
    (hu : IsUnit (1 - rd.X ^ N)) (hP : ParamsOK (ZMod p) l.P) (hp : 4 < p) (hR : RoomOK p c l.P) (hw0 : 0 < l.witLen)
    (hcs : ∀ bs, bs.length = cs.bytesNeeded → ∃ c, cs.decode bs = .ok c)
    (hN : ∀ M, l.P.bSmall * ((2 * l.P.K - 1) * c) + M ≤ reach l.P.bSmall l.P.K → NormLast rd l.P cs M)
    (hsz : p ^ (l.kappa * (τ * N)) * 2 ^ 128 ≤ (2 * pairRoom l.P c + 1) ^ (l.witLen * (l.P.L - 1) * min τ N)) :
    MostUnnoticed σ rd cs p l := by
  obtain ⟨hb, hK, h1, h2, h3, h4, h5⟩ := hR
  intro ccs x w hS hn hhat ht al hd hw hx hsat hws
  have hwl : ccs.n - ccs.l - 1 = l.witLen := by omega
  have hNM := hN (lastRoom l.P c) (by unfold lastRoom; omega)
  have key := C54_most_commitments_unnoticed (σ := σ) rd hτ hu l.P cs ccs x w l.kappa hP
    (by
      intro h
      rw [ZMod.natCast_eq_zero_iff] at h
      exact h5 (Nat.mod_eq_zero_of_dvd h))
    hS (by omega) (by rw [hwl]; exact hhat) ht al (charGt_algebra (p := p) (by omega)) (charGt_algebra hd) hcs hK hNM
    (charGt_algebra (F := ZMod p) h2) h3 h4 (by rw [hwl]; exact hw) hx hsat hws
  rw [hwl] at key
  obtain ⟨Bad, k1, k2⟩ := key
  refine ⟨Bad, ?_, k2⟩
  rw [ZMod.card] at k1
  exact share_of (Nat.pow_pos (by omega)) k1 hsz

/-- **C54** fails, without anything left to notice, for almost all lines of the benchmark configuration for which honest accumulations stay in range
(C85): for Goldilocks with `K ≥ 16`, BabyBear with `K ≥ 16` and Frog with `K ≥ 17`, but for the lines with `L = 2` and 512 or 1024 witness elements
of Goldilocks and Frog. -/
theorem C54_most_shipped :
    (∀ (F C : Type) [Field F] [Fintype F] [DecidableEq F] [CommRing C] [Algebra (ZMod pGoldilocks) F] [Algebra (ZMod pGoldilocks) C]
      (rd : RingData (ZMod pGoldilocks) F C 8 3), rd.X ^ 24 - rd.X ^ 12 + 1 = 0 → ∀ l ∈ linesGoldilocks, 16 ≤ l.P.K →
        (l.P.L = 2 → 2048 ≤ l.witLen) → MostUnnoticed σ rd (packedSet rd.coeff) pGoldilocks l) ∧
    (∀ (F C : Type) [Field F] [Fintype F] [DecidableEq F] [CommRing C] [Algebra (ZMod pBabyBear) F] [Algebra (ZMod pBabyBear) C]
      (rd : RingData (ZMod pBabyBear) F C 8 9), rd.X ^ 72 - rd.X ^ 36 + 1 = 0 → ∀ l ∈ linesBabyBear, 16 ≤ l.P.K →
        MostUnnoticed σ rd (packedSet rd.coeff) pBabyBear l) ∧
    (∀ (F C : Type) [Field F] [Fintype F] [DecidableEq F] [CommRing C] [Algebra (ZMod pFrog) F] [Algebra (ZMod pFrog) C]
      (rd : RingData (ZMod pFrog) F C 4 4), rd.X ^ 16 + 1 = 0 → ∀ l ∈ linesFrog, 17 ≤ l.P.K →
        (l.P.L = 2 → 2048 ≤ l.witLen) → MostUnnoticed σ rd (frogSet rd.coeff) pFrog l) := by
  have a1 : ∀ l ∈ linesGoldilocks, l.P ∈ benchGoldilocks ++ [exampleParams] ∧ 0 < l.witLen := by decide +kernel
  have a2 : ∀ l ∈ linesBabyBear, l.P ∈ benchBabyBear ++ [exampleParams] ∧ 0 < l.witLen := by decide +kernel
  have a3 : ∀ l ∈ linesFrog, l.P ∈ benchFrog ++ [exampleParams] ∧ 0 < l.witLen := by decide +kernel
  have b1 : ∀ P ∈ benchGoldilocks, 16 ≤ P.K → RoomOK pGoldilocks (36 * 32) P := by unfold RoomOK pairRoom lastRoom reach; decide +kernel
  have b2 : ∀ P ∈ benchBabyBear, 16 ≤ P.K → RoomOK pBabyBear (47 * 32) P := by unfold RoomOK pairRoom lastRoom reach; decide +kernel
  have b3 : ∀ P ∈ benchFrog, 17 ≤ P.K → RoomOK pFrog (16 * 128) P := by unfold RoomOK pairRoom lastRoom reach; decide +kernel
  have a1' : ∀ l ∈ linesGoldilocks, l.P ∈ benchGoldilocks := by decide +kernel
  have a2' : ∀ l ∈ linesBabyBear, l.P ∈ benchBabyBear := by decide +kernel
  have a3' : ∀ l ∈ linesFrog, l.P ∈ benchFrog := by decide +kernel
  have c1 : ∀ l ∈ linesGoldilocks, 16 ≤ l.P.K → (l.P.L = 2 → 2048 ≤ l.witLen) →
      pGoldilocks ^ (l.kappa * (3 * 8)) * 2 ^ 128 ≤ (2 * pairRoom l.P (36 * 32) + 1) ^ (l.witLen * (l.P.L - 1) * min 3 8) := by
    unfold pairRoom lastRoom reach; decide +kernel
  have c2 : ∀ l ∈ linesBabyBear, 16 ≤ l.P.K →
      pBabyBear ^ (l.kappa * (9 * 8)) * 2 ^ 128 ≤ (2 * pairRoom l.P (47 * 32) + 1) ^ (l.witLen * (l.P.L - 1) * min 9 8) := by
    unfold pairRoom lastRoom reach; decide +kernel
  have c3 : ∀ l ∈ linesFrog, 17 ≤ l.P.K → (l.P.L = 2 → 2048 ≤ l.witLen) →
      pFrog ^ (l.kappa * (4 * 4)) * 2 ^ 128 ≤ (2 * pairRoom l.P (16 * 128) + 1) ^ (l.witLen * (l.P.L - 1) * min 4 4) := by
    unfold pairRoom lastRoom reach; decide +kernel
  refine ⟨?_, ?_, ?_⟩
  · intro F C _ _ _ _ _ _ rd hX l hl hK hL
    refine mostUnnoticed_of rd _ l (by norm_num) (C54_units_shipped.1 F C rd hX) (C85_params_fit.1 l.P (a1 l hl).1).2 (by decide +kernel)
      (b1 _ (a1' l hl) hK) (a1 l hl).2 (fun bs hbs => ?_) (fun M hM => ?_) (c1 l hl hK hL)
    · obtain ⟨c, hc, -⟩ := C44_packed_value rd.coeff bs hbs
      exact ⟨c, hc⟩
    · exact normLast_of rd l.P _ (table_goldilocks rd hX) (bounded_packed rd) (by rw [(b1 _ (a1' l hl) hK).1]; decide) (by omega) hM
  · intro F C _ _ _ _ _ _ rd hX l hl hK
    refine mostUnnoticed_of rd _ l (by norm_num) (C54_units_shipped.2.1 F C rd hX) (C85_params_fit.2.1 l.P (a2 l hl).1).2 (by decide +kernel)
      (b2 _ (a2' l hl) hK) (a2 l hl).2 (fun bs hbs => ?_) (fun M hM => ?_) (c2 l hl hK)
    · obtain ⟨c, hc, -⟩ := C44_packed_value rd.coeff bs hbs
      exact ⟨c, hc⟩
    · exact normLast_of rd l.P _ (table_babybear rd hX) (bounded_packed rd) (by rw [(b2 _ (a2' l hl) hK).1]; decide) (by omega) hM
  · intro F C _ _ _ _ _ _ rd hX l hl hK hL
    refine mostUnnoticed_of rd _ l (by norm_num) (C54_units_shipped.2.2 F C rd hX) (C85_params_fit.2.2.1 l.P (a3 l hl).1).2 (by decide +kernel)
      (b3 _ (a3' l hl) hK) (a3 l hl).2 (fun bs hbs => ?_) (fun M hM => ?_) (c3 l hl hK hL)
    · obtain ⟨c, _, hc, -⟩ := C45_values rd.coeff bs hbs
      exact ⟨c, hc⟩
    · exact normLast_of rd l.P _ (table_frog rd hX) (bounded_frog rd) (by rw [(b3 _ (a3' l hl) hK).1]; decide) (by omega) hM

/-- **C54**, whole accumulations. Under the conditions of `C54_most_shipped` and up to the same share of pairs of a matrix and a commitment: of any
number of steps with such commitments all are accepted, and the last accumulator is valid for a witness in range. -/
theorem C54_most_chain {Fp F C : Type} {N τ : Nat} [Field Fp] [Field F] [DecidableEq F] [Algebra Fp F] [CommRing C] [Algebra Fp C]
    (rd : RingData Fp F C N τ) (cs : ChallengeSet C) (p : Nat) (l : BenchLine) (h : MostUnnoticed σ rd cs p l)
    (ccs : CCS (Fin N → F)) (x : List (Fin N → F)) (w : Witness (Fin N → F) C) (hS : LinShape ccs) (hn : ccs.n = ccs.l + 1 + l.witLen)
    (hhat : Nat.clog 2 (l.witLen * l.P.L) = ccs.s) (ht : ccs.t = ccs.M.length) (al : Aligned ccs) (hd : ccs.d + 1 < p)
    (hw : WitOK rd l.P l.witLen w) (hx : x.length = ccs.l) (hsat : CCSHolds ccs ((x ++ [1]) ++ w.wCcs))
    (hws : WitShort rd (2 ^ (l.P.K - 1) - 2) w) :
    ∃ Bad : Finset ((Fin l.kappa → Fin (l.witLen * l.P.L) → Fin N → F) × (Fin l.kappa → Fin N → F)),
      Bad.card * 2 ^ 128 ≤ Nat.card ((Fin l.kappa → Fin (l.witLen * l.P.L) → Fin N → F) × (Fin l.kappa → Fin N → F)) ∧
      ∀ A (ys : List (Fin l.kappa → Fin N → F)), (∀ y ∈ ys, (A, y) ∉ Bad) →
        ∀ (T : Transcript F (Fin N → F) σ) (s : σ) (acc : LCCCS (Fin N → F)) (wAcc : Witness (Fin N → F) C),
          (∀ s n, (T.bytes s n).1.length = n) →
          LcccsHolds rd l.P ccs ⟨⟨l.kappa, l.witLen * l.P.L, matRows A⟩⟩ acc wAcc → WitShort rd (reach l.P.bSmall l.P.K) wAcc →
          ∃ proofs accs acc' w' s', proofs.length = ys.length ∧
            ivcVerify rd l.P cs T ccs ((ys.map fun y => (⟨⟨List.ofFn y⟩, x⟩ : CCCS (Fin N → F))).zip proofs) s acc = .ok ((accs, acc'), s') ∧
            LcccsHolds rd l.P ccs ⟨⟨l.kappa, l.witLen * l.P.L, matRows A⟩⟩ acc' w' ∧ WitShort rd (reach l.P.bSmall l.P.K) w' := by
  obtain ⟨Bad, h1, h2⟩ := h ccs x w hS hn hhat ht al hd hw hx hsat hws
  refine ⟨Bad, h1, fun A ys hys T s acc wAcc hT hacc hsh => ?_⟩
  have := chain_of_step rd l.P cs ccs _ T (fun cm => ∃ y, (A, y) ∉ Bad ∧ cm = ⟨⟨List.ofFn y⟩, x⟩) (by
    rintro cm ⟨y, hy, rfl⟩ s acc wAcc hacc hsh
    exact h2 A y hy T s acc wAcc hT hacc hsh) (ys.map fun y => ⟨⟨List.ofFn y⟩, x⟩) (by
    intro cm hcm
    obtain ⟨y, hy, rfl⟩ := List.mem_map.1 hcm
    exact ⟨y, hys y hy, rfl⟩) s acc wAcc hacc hsh
  rw [List.length_map] at this
  exact this

end Shipped

section Examples
open Verif.Example

/-- Over `F_7[X]/(X^2+1)` with `b = 2`, `K = 3`, one row and four columns: of the pairs of a matrix and a commitment less than two fifths are
left out. -/
example {σ : Type} : ∃ Bad : Finset ((Fin 1 → Fin 4 → C49) × (Fin 1 → C49)), Bad.card * 125 ≤ 49 * Nat.card ((Fin 1 → Fin 4 → C49) × (Fin 1 → C49)) ∧
    ∀ A y, (A, y) ∉ Bad → ∀ (T : Transcript F49 C49 σ) (s : σ) (acc : LCCCS C49) (wAcc : Witness C49 C49),
      (∀ s n, (T.bytes s n).1.length = n) → LcccsHolds ring49 parUn ccsFs ⟨⟨1, 4, matRows A⟩⟩ acc wAcc →
      WitShort ring49 (reach 2 3) wAcc →
      ∃ proof st w'' s', nifsVerify ring49 parUn cs49 T s acc ⟨⟨List.ofFn y⟩, [0]⟩ proof ccsFs = .ok (st, s') ∧
        LcccsHolds ring49 parUn ccsFs ⟨⟨1, 4, matRows A⟩⟩ st w'' ∧ WitShort ring49 (reach 2 3) w'' := by
  have hcov : ∀ x : ZMod 7, 2 * x.valMinAbs.natAbs ≤ reach 2 3 := by decide
  have hch : CharGt (ZMod 7) (2 * 2) := by
    intro k h0 hk
    interval_cases k <;> decide
  exact C54_most_commitments_unnoticed (σ := σ) ring49 (by decide)
    (by
      refine IsUnit.of_mul_eq_one ![⟨4, 4⟩] ?_
      decide) parUn cs49 ccsFs [0]
    (mkWit ring49 parUn 1 [0, 0, 0, 0]) 1 parUn_ok (by decide) ccsFs_shape (by decide) (by decide) rfl alignedFs charGt49 lsCharGt49
    lsCs49_total (by decide) (M := 4) (R₀ := 2) (U := 2) (fun _ _ _ _ _ _ _ => short7.2 (hcov _)) hch (by decide) (by decide)
    (mkWit_ok ring49 parUn (wl := 1) _ rfl) rfl
    (by
      have : ∀ i < 4, ccsRow ccsFs (([0] ++ [1]) ++ (mkWit ring49 parUn 1 [0, 0, 0, 0]).wCcs) i = 0 := by decide +kernel
      exact this)
    (by
      intro c hc i
      simp only [mkWit, List.mem_cons, List.not_mem_nil, or_false, or_self] at hc
      subst hc
      exact ⟨0, by simp, by simp⟩)

/-- A list of two entries that recomposes to zero, with `B = 2`. -/
example : chainPairs (N := 1) (τ := 2) (wl := 1) (L' := 1) 2 (minPairs (ZMod 7) 1 2) (fun _ _ _ => 3) = fun q _ _ => if q = 0 then 1 else 3 := by
  decide +kernel

example : ∃ d r : ℤ, (-1000 : ℤ) = (16 : ℕ) * d + r ∧ 2 * d.natAbs ≤ 126 ∧ 2 * r.natAbs ≤ 16 := split_int (by decide) (by decide) (by decide)

/-- Of the 49 lines in range four are left out. -/
example : (linesGoldilocks.filter fun l => 16 ≤ l.P.K).length + (linesBabyBear.filter fun l => 16 ≤ l.P.K).length +
      (linesFrog.filter fun l => 17 ≤ l.P.K).length = 49 ∧
    (linesGoldilocks.filter fun l => 16 ≤ l.P.K ∧ l.P.L = 2 ∧ l.witLen < 2048).length +
      (linesFrog.filter fun l => 17 ≤ l.P.K ∧ l.P.L = 2 ∧ l.witLen < 2048).length = 4 := by decide +kernel

/-- Goldilocks with `κ = 22`, 1024 witness elements, `L = 4`, `K = 16`. -/
example {σ F C : Type} [Field F] [Fintype F] [DecidableEq F] [CommRing C] [Algebra (ZMod pGoldilocks) F] [Algebra (ZMod pGoldilocks) C]
    (rd : RingData (ZMod pGoldilocks) F C 8 3) (hX : rd.X ^ 24 - rd.X ^ 12 + 1 = 0) :
    MostUnnoticed σ rd (packedSet rd.coeff) pGoldilocks ⟨22, 1024, ⟨65536, 4, 2, 16⟩⟩ :=
  C54_most_shipped.1 F C rd hX _ (by decide +kernel) (by decide) (by decide)

end Examples

end Verif.Props
