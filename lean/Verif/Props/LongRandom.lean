import Verif.Props.LongStep
import Verif.Props.RingStructure
import Mathlib.LinearAlgebra.Quotient.Card
import Mathlib.LinearAlgebra.Dual.Lemmas
import Mathlib.LinearAlgebra.Isomorphisms
import Mathlib.RingTheory.Adjoin.PowerBasis

/-!
# C54: the folding verifier accepts every commitment, for almost all commitment matrices

`C54_any_commitment` assumes that the lists of opposite pairs that recompose to zero reach every commitment. Here the matrices for which
this fails are counted.
-/

namespace Verif.Props

open Finset Verif Verif.Spec Verif.Poseidon

set_option linter.unusedSectionVars false

section
variable {Fp F C σ : Type} {N τ : Nat} [Field Fp] [Field F] [DecidableEq F] [Algebra Fp F] [CommRing C] [Algebra Fp C]

/-- The matrix as `Ajtai` stores it: a list of rows. -/
def matRows {κ n : Nat} (A : Fin κ → Fin n → Fin N → F) : List (List (Fin N → F)) := List.ofFn fun r => List.ofFn (A r)

/-- The commitment to a list of opposite pairs, by its coefficients. -/
def pairCommit (rd : RingData Fp F C N τ) {κ n : Nat} (A : Fin κ → Fin n → Fin N → F) :
    (Fin n → Fin (τ / 2) → Fin N → Fp) →ₗ[Fp] (Fin κ × Fin (τ * N) → Fp) where
  toFun v rq := rd.coeff (rd.crt.symm (∑ j, A rq.1 j * rd.crt (pairElem rd (v j)))) rq.2
  map_add' v v' := by
    funext rq
    simp [mul_add, sum_add_distrib]
  map_smul' a v := by
    funext rq
    simp [← smul_sum]

/-- The recomposition of a list of opposite pairs. -/
def pairRecomp (Fp : Type) [Field Fp] (E : Type) [AddCommGroup E] [Module Fp E] (wl L B : Nat) : (Fin (wl * L) → E) →ₗ[Fp] (Fin wl → E) :=
  LinearMap.pi fun i => ∑ k ∈ range L, (B : Fp) ^ k • pairSel Fp E (wl * L) (i * L + k)

theorem pairRecomp_apply {E : Type} [AddCommGroup E] [Module Fp E] (wl L B : Nat) (v : Fin (wl * L) → E) (i : Fin wl) :
    pairRecomp Fp E wl L B v i = ∑ k : Fin L, (B : Fp) ^ k.val • v (finProdFinEquiv (i, k)) := by
  simp only [pairRecomp, LinearMap.pi_apply, LinearMap.sum_apply, LinearMap.smul_apply]
  rw [Finset.sum_range]
  refine sum_congr rfl fun k _ => ?_
  have h : i.val * L + k.val < wl * L := by
    have := (finProdFinEquiv (i, k)).2
    simp only [finProdFinEquiv_apply_val] at this
    nlinarith [this]
  rw [pairSel, dif_pos h, LinearMap.proj_apply]
  congr 2
  ext
  simp only [finProdFinEquiv_apply_val]
  ring

/-- The lists of opposite pairs that recompose to zero reach every commitment. -/
def PairsReach (rd : RingData Fp F C N τ) {κ wl L : Nat} (B : Nat) (A : Fin κ → Fin (wl * L) → Fin N → F) : Prop :=
  ∀ t, ∃ v, pairRecomp Fp _ wl L B v = 0 ∧ pairCommit rd A v = t

theorem pairMap_matRows (rd : RingData Fp F C N τ) {κ wl L : Nat} (B : Nat) (A : Fin κ → Fin (wl * L) → Fin N → F)
    {v : Fin (wl * L) → Fin (τ / 2) → Fin N → Fp} (hv : pairRecomp Fp _ wl L B v = 0) {t : Fin (matRows A).length → Fin (τ * N) → Fp}
    (hc : ∀ i (hi : i.val < κ) q, pairCommit rd A v (⟨i.val, hi⟩, q) = t i q) :
    pairMap rd (matRows A) (wl * L) wl L B v = (t, 0) := by
  have hl : (matRows A).length = κ := by simp [matRows]
  refine Prod.ext ?_ hv
  obtain ⟨h1, -⟩ := pairList_val rd (matRows A) (wl * L) wl L B v hv
  funext i q
  have hi : i.val < κ := by have := i.2; omega
  have e1 := h1 i.val i.2
  have e2 := hc i hi q
  simp only [pairCommit, LinearMap.coe_mk, AddHom.coe_mk] at e2
  refine Eq.trans ?_ e2
  have e3 : dot (matRows A)[i.val] ((pairList rd (wl * L) v).map rd.crt) = ∑ j, A ⟨i.val, hi⟩ j * rd.crt (pairElem rd (v j)) := by
    rw [dot_eq_sum _ _ (wl * L) (Or.inr (by simp [pairList])), Finset.sum_range]
    refine sum_congr rfl fun j _ => ?_
    simp [matRows, pairList, List.getD_eq_getElem?_getD, pairAt, pairSel]
  rw [← e3, e1]
  simp

theorem pairSpan_of (rd : RingData Fp F C N τ) {κ wl L : Nat} (B : Nat) (A : Fin κ → Fin (wl * L) → Fin N → F)
    (h : PairsReach rd B A) :
    ∀ t, ∃ v, pairMap rd (matRows A) (wl * L) wl L B v = (t, 0) := by
  intro t
  have hl : (matRows A).length = κ := by simp [matRows]
  obtain ⟨v, hv, hc⟩ := h fun rq => t ⟨rq.1, by rw [hl]; exact rq.1.2⟩ rq.2
  exact ⟨v, pairMap_matRows rd B A hv fun i hi q => congrFun hc (⟨i.val, hi⟩, q)⟩

/-- Linear maps onto have kernels of one size. -/
theorem card_ker_surj {M T : Type} [AddCommGroup M] [Module Fp M] [AddCommGroup T] [Module Fp T] (f : M →ₗ[Fp] T) (hf : Function.Surjective f) :
    Nat.card (LinearMap.ker f) * Nat.card T = Nat.card M := by
  rw [Submodule.card_eq_card_quotient_mul_card (LinearMap.ker f), Nat.card_congr (f.quotKerEquivOfSurjective hf).toEquiv]

theorem pairCommit_single (rd : RingData Fp F C N τ) {κ n : Nat} (A : Fin κ → Fin n → Fin N → F) (j : Fin n) (e : Fin (τ / 2) → Fin N → Fp)
    (rq : Fin κ × Fin (τ * N)) :
    pairCommit rd A (Pi.single j e) rq = rd.coeff (rd.crt.symm (A rq.1 j * rd.crt (pairElem rd e))) rq.2 := by
  simp only [pairCommit, LinearMap.coe_mk, AddHom.coe_mk]
  rw [Finset.sum_eq_single j]
  · simp
  · intro j' _ hj
    simp [hj]
  · simp

/-- Two entries of one group that recompose to zero. -/
def twoPairs {wl L' : Nat} (B : Nat) (e : Fin (τ / 2) → Fin N → Fp) (i : Fin wl) (k : Fin L') :
    Fin (wl * (L' + 1)) → Fin (τ / 2) → Fin N → Fp :=
  Pi.single (finProdFinEquiv (i, 0)) e - Pi.single (finProdFinEquiv (i, k.succ)) (((B : Fp) ^ (k.val + 1))⁻¹ • e)

theorem twoPairs_recomp {wl L' : Nat} {B : Nat} (hB : (B : Fp) ≠ 0) (e : Fin (τ / 2) → Fin N → Fp) (i : Fin wl) (k : Fin L') :
    pairRecomp Fp _ wl (L' + 1) B (twoPairs B e i k) = 0 := by
  funext i'
  rw [pairRecomp_apply]
  simp only [twoPairs, Pi.sub_apply, smul_sub, sum_sub_distrib, Pi.zero_apply]
  by_cases hi : i' = i
  · subst hi
    rw [Finset.sum_eq_single 0, Finset.sum_eq_single k.succ]
    · simp [smul_smul, hB]
    · intro k' _ hk
      rw [Pi.single_eq_of_ne, smul_zero]
      intro h
      exact hk (Prod.mk.inj (finProdFinEquiv.injective h)).2
    · simp
    · intro k' _ hk
      rw [Pi.single_eq_of_ne, smul_zero]
      intro h
      exact hk (Prod.mk.inj (finProdFinEquiv.injective h)).2
    · simp
  · have hz : ∀ (k' k'' : Fin (L' + 1)) (x : Fin (τ / 2) → Fin N → Fp),
        (Pi.single (finProdFinEquiv (i, k'')) x : Fin (wl * (L' + 1)) → Fin (τ / 2) → Fin N → Fp) (finProdFinEquiv (i', k')) = 0 := by
      intro k' k'' x
      apply Pi.single_eq_of_ne
      intro h
      exact hi (Prod.mk.inj (finProdFinEquiv.injective h)).1
    simp [hz]

/-- Every combination of the elements is a unit, except zero. -/
def UnitSpan (rd : RingData Fp F C N τ) {m : Nat} (e : Fin m → Fin (τ / 2) → Fin N → Fp) : Prop :=
  ∀ d : Fin m → Fp, d ≠ 0 → IsUnit (pairElem rd (∑ t, d t • e t))

/-- The values of a functional `c` at the commitments to these pairs, as a function of the matrix. -/
def probe (rd : RingData Fp F C N τ) {κ wl L' m : Nat} (B : Nat) (e : Fin m → Fin (τ / 2) → Fin N → Fp) (c : Fin κ × Fin (τ * N) → Fp) :
    (Fin κ → Fin (wl * (L' + 1)) → Fin N → F) →ₗ[Fp] ((Fin wl × Fin L') × Fin m → Fp) where
  toFun A ik := ∑ rq, c rq * pairCommit rd A (twoPairs B (e ik.2) ik.1.1 ik.1.2) rq
  map_add' A A' := by
    funext ik
    simp [pairCommit, add_mul, mul_add, sum_add_distrib]
  map_smul' a A := by
    funext ik
    simp only [pairCommit, LinearMap.coe_mk, AddHom.coe_mk, Pi.smul_apply, smul_mul_assoc, ← smul_sum, map_smul, RingHom.id_apply,
      mul_smul_comm]

/-- The values of a functional at the multiples of one element by such elements are arbitrary. -/
theorem units_values (φ : C →ₗ[Fp] Fp) (hφ : φ ≠ 0) {m : Nat} (u : Fin m → C) (hu : ∀ d : Fin m → Fp, d ≠ 0 → IsUnit (∑ t, d t • u t))
    (y : Fin m → Fp) : ∃ z : C, ∀ t, φ (z * u t) = y t := by
  set f : C →ₗ[Fp] (Fin m → Fp) := LinearMap.pi fun t => φ ∘ₗ LinearMap.mulRight Fp (u t) with hf
  suffices h : LinearMap.range f = ⊤ by
    obtain ⟨z, hz⟩ := LinearMap.range_eq_top.1 h y
    exact ⟨z, fun t => congrFun hz t⟩
  by_contra h
  obtain ⟨g, hg, hgp⟩ := Submodule.exists_dual_map_eq_bot_of_lt_top (lt_top_iff_ne_top.2 h) inferInstance
  have hrep : ∀ x, g x = ∑ t, g (fun j => if t = j then 1 else 0) * x t := by
    intro x
    rw [LinearMap.pi_apply_eq_sum_univ g x]
    exact sum_congr rfl fun t _ => by rw [smul_eq_mul, mul_comm]
  set d : Fin m → Fp := fun t => g fun j => if t = j then 1 else 0 with hd
  have hd0 : d ≠ 0 := by
    intro h0
    apply hg
    refine LinearMap.ext fun x => ?_
    rw [hrep x]
    exact sum_eq_zero fun t _ => by
      have : d t = 0 := congrFun h0 t
      rw [show g (fun j => if t = j then 1 else 0) = d t from rfl, this, zero_mul]
  obtain ⟨w, hw⟩ := (hu d hd0).exists_right_inv
  apply hφ
  refine LinearMap.ext fun x => ?_
  have h1 : g (f (x * w)) = 0 := by
    have : g (f (x * w)) ∈ (LinearMap.range f).map g := Submodule.mem_map_of_mem (LinearMap.mem_range_self f _)
    rw [hgp] at this
    simpa using this
  rw [hrep] at h1
  have h2 : φ ((x * w) * ∑ t, d t • u t) = ∑ t, d t * f (x * w) t := by
    rw [mul_sum, map_sum]
    refine sum_congr rfl fun t _ => ?_
    rw [mul_smul_comm, map_smul, smul_eq_mul]
    rfl
  rw [mul_assoc, mul_comm w, hw, mul_one] at h2
  rw [h2]
  exact h1

theorem probe_surj (rd : RingData Fp F C N τ) {κ wl L' m : Nat} {B : Nat} (hB : (B : Fp) ≠ 0) {e : Fin m → Fin (τ / 2) → Fin N → Fp}
    (he : UnitSpan rd e) {c : Fin κ × Fin (τ * N) → Fp} (hc : c ≠ 0) :
    Function.Surjective (probe (wl := wl) (L' := L') rd B e c) := by
  intro y
  obtain ⟨⟨r0, q0⟩, hc0⟩ := Function.ne_iff.1 hc
  have hc0 : c (r0, q0) ≠ 0 := hc0
  set φ : C →ₗ[Fp] Fp := (∑ q, c (r0, q) • LinearMap.proj q) ∘ₗ rd.coeff.toLinearMap with hφd
  have hφe : ∀ x, φ x = ∑ q, c (r0, q) * rd.coeff x q := by
    intro x
    simp [hφd]
  have hφ : φ ≠ 0 := by
    intro h
    apply hc0
    have := LinearMap.congr_fun h (rd.coeff.symm (Pi.single q0 1))
    rw [hφe, LinearEquiv.apply_symm_apply, Finset.sum_eq_single q0 (fun q _ hq => by rw [Pi.single_eq_of_ne hq, mul_zero]) (by simp),
      Pi.single_eq_same, mul_one] at this
    exact this
  have hval := fun (i : Fin wl) (k : Fin L') => units_values φ hφ (fun t => pairElem rd (e t))
    (fun d hd => by
      have := he d hd
      rwa [map_sum, sum_congr rfl fun t _ => map_smul (pairElem rd) (d t) (e t)] at this)
    (fun t => -((B : Fp) ^ (k.val + 1) * y ((i, k), t)))
  choose z hz using hval
  set A : Fin κ → Fin (wl * (L' + 1)) → Fin N → F := fun r j => if r = r0 then
    (Fin.cases 0 (fun k => rd.crt (z (finProdFinEquiv.symm j).1 k)) (finProdFinEquiv.symm j).2 : Fin N → F) else 0 with hA
  refine ⟨A, ?_⟩
  funext ⟨⟨i, k⟩, t⟩
  have h0 : ∀ r, A r (finProdFinEquiv (i, 0)) = 0 := by
    intro r
    simp only [hA, Equiv.symm_apply_apply, Fin.cases_zero, ite_self]
  have h1 : ∀ r, A r (finProdFinEquiv (i, k.succ)) = if r = r0 then rd.crt (z i k) else 0 := by
    intro r
    simp only [hA, Equiv.symm_apply_apply, Fin.cases_succ]
  have hBk : (B : Fp) ^ (k.val + 1) ≠ 0 := pow_ne_zero _ hB
  have hv : ∀ rq, pairCommit rd A (twoPairs B (e t) i k) rq
      = if rq.1 = r0 then -(((B : Fp) ^ (k.val + 1))⁻¹ * rd.coeff (z i k * pairElem rd (e t)) rq.2) else 0 := by
    rintro ⟨r, q⟩
    rw [twoPairs, map_sub, Pi.sub_apply, pairCommit_single, pairCommit_single, h0, h1]
    simp only [zero_mul, map_zero, Pi.zero_apply, zero_sub, map_smul, mul_smul_comm]
    by_cases hr : r = r0
    · subst hr
      rw [if_pos rfl, if_pos rfl, ← map_mul, AlgEquiv.symm_apply_apply]
      simp only [Pi.smul_apply, smul_eq_mul]
    · rw [if_neg hr, if_neg hr]
      simp
  simp only [probe, LinearMap.coe_mk, AddHom.coe_mk, hv]
  rw [Fintype.sum_prod_type, Finset.sum_eq_single r0]
  · simp only [if_true]
    have h2 : ∑ q, c (r0, q) * -(((B : Fp) ^ (k.val + 1))⁻¹ * rd.coeff (z i k * pairElem rd (e t)) q)
        = -(((B : Fp) ^ (k.val + 1))⁻¹ * φ (z i k * pairElem rd (e t))) := by
      rw [hφe, mul_sum, ← sum_neg_distrib]
      exact sum_congr rfl fun q _ => by ring
    rw [h2, hz i k t]
    field_simp
  · intro r _ hr
    simp [hr]
  · simp

/-- If not all commitments are reached, a functional vanishes at those that are. -/
theorem bad_functional (rd : RingData Fp F C N τ) {κ wl L : Nat} {B : Nat} (A : Fin κ → Fin (wl * L) → Fin N → F)
    (h : ¬ PairsReach rd B A) :
    ∃ c : Fin κ × Fin (τ * N) → Fp, c ≠ 0 ∧ ∀ v, pairRecomp Fp _ wl L B v = 0 → ∑ rq, c rq * pairCommit rd A v rq = 0 := by
  set p := (LinearMap.ker (pairRecomp Fp (Fin (τ / 2) → Fin N → Fp) wl L B)).map (pairCommit rd A) with hp
  have hlt : p < ⊤ := by
    rw [lt_top_iff_ne_top]
    intro ht
    apply h
    intro t
    have : t ∈ p := by rw [ht]; trivial
    obtain ⟨v, hv, rfl⟩ := Submodule.mem_map.1 this
    exact ⟨v, LinearMap.mem_ker.1 hv, rfl⟩
  obtain ⟨f, hf, hfp⟩ := Submodule.exists_dual_map_eq_bot_of_lt_top hlt inferInstance
  have hrep : ∀ x, f x = ∑ rq, f (fun j => if rq = j then 1 else 0) * x rq := by
    intro x
    rw [LinearMap.pi_apply_eq_sum_univ f x]
    exact sum_congr rfl fun rq _ => by rw [smul_eq_mul, mul_comm]
  refine ⟨fun rq => f fun j => if rq = j then 1 else 0, ?_, ?_⟩
  · intro h0
    apply hf
    refine LinearMap.ext fun x => ?_
    rw [hrep x]
    exact sum_eq_zero fun rq _ => by rw [congrFun h0 rq]; simp
  · intro v hv
    rw [← hrep]
    have : f (pairCommit rd A v) ∈ p.map f := Submodule.mem_map_of_mem (Submodule.mem_map_of_mem (LinearMap.mem_ker.2 hv))
    rw [hfp] at this
    simpa using this

open Classical in
/-- The matrices whose lists of opposite pairs do not reach every commitment: at most `p^(κ τ N) / p^(|w| (L - 1) m)` of all, with a space of
opposite pairs of dimension `m` in which all elements but zero are units. -/
theorem bad_count [Fintype Fp] [Fintype F] (rd : RingData Fp F C N τ) (κ wl L B m : Nat) (hL : 1 ≤ L) (hB : (B : Fp) ≠ 0)
    {e : Fin m → Fin (τ / 2) → Fin N → Fp} (he : UnitSpan rd e) :
    (univ.filter fun A : Fin κ → Fin (wl * L) → Fin N → F => ¬ PairsReach rd B A).card
      * Fintype.card Fp ^ (wl * (L - 1) * m) ≤ Fintype.card Fp ^ (κ * (τ * N)) * Fintype.card (Fin κ → Fin (wl * L) → Fin N → F) := by
  obtain ⟨L', rfl⟩ : ∃ L', L = L' + 1 := ⟨L - 1, by omega⟩
  set S : Finset (Fin κ × Fin (τ * N) → Fp) := univ.filter fun c => c ≠ 0 with hS
  have hsub : (univ.filter fun A : Fin κ → Fin (wl * (L' + 1)) → Fin N → F =>
      ¬ PairsReach rd B A) ⊆
      S.biUnion fun c => univ.filter fun A => A ∈ LinearMap.ker (probe (wl := wl) (L' := L') rd B e c) := by
    intro A hA
    obtain ⟨c, hc, hv⟩ := bad_functional rd A (mem_filter.1 hA).2
    refine mem_biUnion.2 ⟨c, by simp [hS, hc], mem_filter.2 ⟨mem_univ _, LinearMap.mem_ker.2 ?_⟩⟩
    funext ik
    exact hv _ (twoPairs_recomp hB (e ik.2) ik.1.1 ik.1.2)
  have hker : ∀ c ∈ S, (univ.filter fun A => A ∈ LinearMap.ker (probe (wl := wl) (L' := L') rd B e c)).card * Fintype.card Fp ^ (wl * L' * m)
      = Fintype.card (Fin κ → Fin (wl * (L' + 1)) → Fin N → F) := by
    intro c hc
    have h1 := card_ker_surj _ (probe_surj (wl := wl) (L' := L') rd hB he (mem_filter.1 hc).2)
    rw [Nat.card_eq_fintype_card, Nat.card_eq_fintype_card, Nat.card_eq_fintype_card] at h1
    rw [← h1, Fintype.card_fun, Fintype.card_prod, Fintype.card_prod, Fintype.card_fin, Fintype.card_fin, Fintype.card_fin]
    congr 1
    rw [← Fintype.card_subtype]
  calc _ ≤ (∑ c ∈ S, (univ.filter fun A => A ∈ LinearMap.ker (probe (wl := wl) (L' := L') rd B e c)).card) * Fintype.card Fp ^ (wl * L' * m) :=
        Nat.mul_le_mul_right _ ((card_le_card hsub).trans card_biUnion_le)
    _ = S.card * Fintype.card (Fin κ → Fin (wl * (L' + 1)) → Fin N → F) := by
        rw [sum_mul, sum_congr rfl hker, sum_const, smul_eq_mul]
    _ ≤ _ := by
        apply Nat.mul_le_mul_right
        calc S.card ≤ Fintype.card (Fin κ × Fin (τ * N) → Fp) := card_le_univ _
          _ = _ := by rw [Fintype.card_fun, Fintype.card_prod, Fintype.card_fin, Fintype.card_fin]

/-- `X^t - X^(N+t)` is an opposite pair. -/
theorem pairElem_monomial (rd : RingData Fp F C N τ) (hτ : 2 ≤ τ) (t : Fin N) :
    pairElem rd (fun p a => if p.val = 0 ∧ a = t then 1 else 0) = (1 - rd.X ^ N) * rd.X ^ t.val := by
  have hN := rd.npos
  have ht := t.2
  have hlt : N + t.val < τ * N := by nlinarith
  apply rd.coeff.injective
  have h0 := rd.coeff_X ⟨t.val, by omega⟩
  have h1 := rd.coeff_X ⟨N + t.val, hlt⟩
  have p0 : (⟨t.val, by omega⟩ : Fin (τ * N)) = finProdFinEquiv (⟨0, by omega⟩, t) := by
    apply Fin.ext; simp
  have p1 : (⟨N + t.val, hlt⟩ : Fin (τ * N)) = finProdFinEquiv (⟨1, by omega⟩, t) := by
    apply Fin.ext; simp; ring
  rw [p0] at h0
  rw [p1] at h1
  simp only [finProdFinEquiv_apply_val, mul_zero, add_zero, mul_one] at h0 h1
  rw [pairElem_coeff, sub_mul, one_mul, ← pow_add, map_sub, h0, show N + t.val = t.val + N by ring, h1]
  funext q
  obtain ⟨⟨j, a⟩, rfl⟩ := finProdFinEquiv.surjective q
  have hj := j.2
  simp only [pairCoeffs, LinearMap.coe_mk, AddHom.coe_mk, Equiv.symm_apply_apply, Pi.sub_apply, Pi.single_apply,
    finProdFinEquiv.injective.eq_iff, Prod.mk.injEq, Fin.ext_iff]
  by_cases ha : a.val = t.val
  · simp only [ha, and_true]
    by_cases hj0 : j.val = 0
    · have : 0 < τ / 2 := by omega
      simp [hj0, this]
    · by_cases hj1 : j.val = 1
      · have : 0 < τ / 2 := by omega
        simp [hj1, this]
      · have h2 : ¬ j.val / 2 = 0 := by omega
        simp only [hj0, hj1, h2, if_false, neg_zero, ite_self, dite_eq_ite, sub_zero]
  · simp only [ha, and_false, if_false, neg_zero, ite_self, dite_eq_ite, sub_zero]

theorem coeff_sum (rd : RingData Fp F C N τ) (z : C) : z = ∑ i, rd.coeff z i • rd.X ^ (i : Nat) := by
  apply rd.coeff.injective
  rw [map_sum]
  funext q
  rw [Finset.sum_apply, Finset.sum_eq_single q]
  · rw [map_smul, rd.coeff_X]; simp
  · intro i _ hi
    rw [map_smul, rd.coeff_X]
    simp [Ne.symm hi]
  · simp

/-- The image of `X` generates. -/
theorem adjoin_image (rd : RingData Fp F C N τ) (π : C →ₐ[Fp] F) (hπ : Function.Surjective π) : Algebra.adjoin Fp {π rd.X} = ⊤ := by
  have hx : π rd.X ∈ Algebra.adjoin Fp {π rd.X} := Algebra.self_mem_adjoin_singleton Fp _
  generalize Algebra.adjoin Fp {π rd.X} = S at hx ⊢
  refine eq_top_iff.2 fun y _ => ?_
  obtain ⟨z, rfl⟩ := hπ y
  have h1 : π z = ∑ i, rd.coeff z i • (π rd.X) ^ (i : Nat) := by
    conv_lhs => rw [coeff_sum rd z]
    rw [map_sum]
    exact sum_congr rfl fun i _ => by rw [map_smul, map_pow]
  rw [h1]
  exact S.sum_mem fun i _ => S.smul_mem (S.pow_mem hx _) _

theorem finrank_slot (rd : RingData Fp F C N τ) [Module.Finite Fp F] : Module.finrank Fp F = τ := by
  have h1 := rd.crt.toLinearEquiv.finrank_eq
  have h2 := rd.coeff.finrank_eq
  rw [h2] at h1
  simp only [Module.finrank_pi_fintype, Module.finrank_self, sum_const, card_univ, Fintype.card_fin, smul_eq_mul, mul_one] at h1
  have : N * Module.finrank Fp F = N * τ := by rw [← h1]; ring
  exact Nat.eq_of_mul_eq_mul_left rd.npos this

/-- A generator is no zero of a polynomial of degree less than the degree of the field. -/
theorem generator_low_degree [Module.Finite Fp F] {x : F} (htop : Algebra.adjoin Fp {x} = ⊤) {m : Nat} (hm : m ≤ Module.finrank Fp F)
    (d : Fin m → Fp) (hd : d ≠ 0) : ∑ t, d t • x ^ t.val ≠ 0 := by
  intro h0
  have hint : IsIntegral Fp x := Algebra.IsIntegral.isIntegral x
  have hdeg : (minpoly Fp x).natDegree = Module.finrank Fp F := by
    have h1 := (Algebra.adjoin.powerBasis hint).finrank
    rw [Algebra.adjoin.powerBasis_dim] at h1
    rw [← h1, htop]
    exact Subalgebra.topEquiv.toLinearEquiv.finrank_eq
  set p : Polynomial Fp := ∑ t : Fin m, Polynomial.monomial t.val (d t) with hp
  have hpc : ∀ t : Fin m, p.coeff t.val = d t := by
    intro t
    rw [hp, Polynomial.finsetSum_coeff, Finset.sum_eq_single t]
    · simp
    · intro t' _ ht
      rw [Polynomial.coeff_monomial, if_neg]
      intro h
      exact ht (Fin.ext h)
    · simp
  have hp0 : p ≠ 0 := by
    intro h
    apply hd
    funext t
    rw [← hpc t, h]
    simp
  have hpe : Polynomial.aeval x p = 0 := by
    rw [hp, map_sum, ← h0]
    refine sum_congr rfl fun t _ => ?_
    rw [Polynomial.aeval_monomial, Algebra.smul_def]
  have hle := Polynomial.natDegree_le_natDegree (minpoly.degree_le_of_ne_zero Fp x hp0 hpe)
  have hlt : p.natDegree < m := by
    rw [Polynomial.natDegree_lt_iff_degree_lt hp0, hp]
    refine lt_of_le_of_lt (Polynomial.degree_sum_le _ _) ?_
    rw [Finset.sup_lt_iff (by exact WithBot.bot_lt_coe _)]
    intro t _
    exact lt_of_le_of_lt (Polynomial.degree_monomial_le _ _) (by exact_mod_cast t.2)
  omega

/-- A polynomial of degree less than `τ` in `X` is a unit or zero: each slot is a field of degree `τ`, generated by the value of `X`. -/
theorem low_degree_unit (rd : RingData Fp F C N τ) {m : Nat} (hm : m ≤ τ) (d : Fin m → Fp) (hd : d ≠ 0) :
    IsUnit (∑ t, d t • rd.X ^ t.val) := by
  have h : ∀ a, rd.crt (∑ t, d t • rd.X ^ t.val) a ≠ 0 := by
    intro a h0
    have hfinC : Module.Finite Fp C := Module.Finite.equiv rd.coeff.symm
    obtain ⟨π, hπ⟩ : ∃ π : C →ₐ[Fp] F, ∀ z, π z = rd.crt z a :=
      ⟨(Pi.evalAlgHom Fp (fun _ : Fin N => F) a).comp rd.crt.toAlgHom, fun _ => rfl⟩
    have hπs : Function.Surjective π := by
      intro y
      refine ⟨rd.crt.symm (Pi.single a y), ?_⟩
      rw [hπ, AlgEquiv.apply_symm_apply, Pi.single_eq_same]
    have hfinF : Module.Finite Fp F := Module.Finite.of_surjective π.toLinearMap hπs
    refine generator_low_degree (adjoin_image rd π hπs) (by rw [finrank_slot rd]; exact hm) d hd ?_
    rw [← hπ, map_sum] at h0
    rw [← h0]
    refine sum_congr rfl fun t _ => ?_
    rw [map_smul, map_pow]
  refine IsUnit.of_mul_eq_one (rd.crt.symm fun a => (rd.crt (∑ t, d t • rd.X ^ t.val) a)⁻¹) ?_
  apply rd.crt.injective
  rw [map_mul, AlgEquiv.apply_symm_apply, map_one]
  funext a
  exact mul_inv_cancel₀ (h a)

/-- The pairs `X^t - X^(N+t)`, `t < min(τ, N)`. -/
def minPairs (Fp : Type) [Field Fp] (N τ : Nat) : Fin (min τ N) → Fin (τ / 2) → Fin N → Fp :=
  fun t p a => if p.val = 0 ∧ a = (⟨t.val, lt_of_lt_of_le t.2 (min_le_right _ _)⟩ : Fin N) then 1 else 0

theorem unitSpan_minPairs (rd : RingData Fp F C N τ) (hτ : 2 ≤ τ) (hu : IsUnit (1 - rd.X ^ N)) : UnitSpan rd (minPairs Fp N τ) := by
  intro d hd
  rw [map_sum]
  have h1 : ∀ t : Fin (min τ N), pairElem rd (d t • minPairs Fp N τ t) = (1 - rd.X ^ N) * (d t • rd.X ^ t.val) := by
    intro t
    rw [map_smul]
    exact congrArg (d t • ·) (pairElem_monomial rd hτ _) |>.trans (mul_smul_comm _ _ _).symm
  rw [sum_congr rfl fun t _ => h1 t, ← mul_sum]
  exact hu.mul (low_degree_unit rd (min_le_left _ _) d hd)

/-- With `1 - X^N` a unit there is a space of opposite pairs of dimension `min τ N` in which all elements but zero are units. -/
theorem unitSpan_min (rd : RingData Fp F C N τ) (hτ : 2 ≤ τ) (hu : IsUnit (1 - rd.X ^ N)) :
    ∃ e : Fin (min τ N) → Fin (τ / 2) → Fin N → Fp, UnitSpan rd e := ⟨_, unitSpan_minPairs rd hτ hu⟩

/-- **C54**, for almost all commitment matrices. Let `1 - X^N` be invertible (which is so for Goldilocks, BabyBear and Frog,
`C54_units_shipped`), and let `x` be a public input for which some vector of `K - 1` short pieces recomposes to a satisfying witness. Of the
matrices with `κ` rows all but a fraction `p^(κ τ N) / p^(|w| (L - 1) min(τ, N))` are such that for *every* commitment `y` the
verifier accepts a step from the statement `(y, x)`, for every transcript and every valid accumulator. -/
theorem C54_almost_all_matrices [Fintype Fp] [Fintype F] (rd : RingData Fp F C N τ) (hτ : 2 ≤ τ) (hu : IsUnit (1 - rd.X ^ N)) (P : Params)
    (cs : ChallengeSet C) (ccs : CCS (Fin N → F)) (x : List (Fin N → F)) (w : Witness (Fin N → F) C) (κ : Nat)
    (hP : ParamsOK Fp P) (hB : (P.B : Fp) ≠ 0) (hS : LinShape ccs) (hnl : ccs.l + 1 < ccs.n)
    (hhat : Nat.clog 2 ((ccs.n - ccs.l - 1) * P.L) = ccs.s) (ht : ccs.t = ccs.M.length) (al : Aligned ccs)
    (hc : CharGt F (2 * P.bSmall)) (hd : CharGt F (ccs.d + 1))
    (hcs : ∀ bs, bs.length = cs.bytesNeeded → ∃ c, cs.decode bs = .ok c)
    (hw : WitOK rd P (ccs.n - ccs.l - 1) w) (hx : x.length = ccs.l) (hsat : CCSHolds ccs ((x ++ [1]) ++ w.wCcs))
    (fc0 : Nat → List C) (hcomb0 : IsComb (P.K - 1) (fun k => ((P.bSmall ^ k : Nat) : C)) fc0 w.fCoeff ((ccs.n - ccs.l - 1) * P.L))
    (hfs : ∀ k < P.K - 1, ∀ c ∈ fc0 k, ∀ i, Short P.bSmall (rd.coeff c i)) :
    ∃ Bad : Finset (Fin κ → Fin ((ccs.n - ccs.l - 1) * P.L) → Fin N → F),
      Bad.card * Fintype.card Fp ^ ((ccs.n - ccs.l - 1) * (P.L - 1) * min τ N)
        ≤ Fintype.card Fp ^ (κ * (τ * N)) * Nat.card (Fin κ → Fin ((ccs.n - ccs.l - 1) * P.L) → Fin N → F) ∧
      ∀ A ∉ Bad, ∀ y : Commitment (Fin N → F), y.val.length = κ →
        ∀ (T : Transcript F (Fin N → F) σ) (s : σ) (acc : LCCCS (Fin N → F)) (wAcc : Witness (Fin N → F) C),
          (∀ s n, (T.bytes s n).1.length = n) →
          LcccsHolds rd P ccs ⟨⟨κ, (ccs.n - ccs.l - 1) * P.L, matRows A⟩⟩ acc wAcc → WitShort rd (reach P.bSmall P.K) wAcc →
          ∃ proof st w'' s', nifsVerify rd P cs T s acc ⟨y, x⟩ proof ccs = .ok (st, s') ∧
            LcccsHolds rd P ccs ⟨⟨κ, (ccs.n - ccs.l - 1) * P.L, matRows A⟩⟩ st w'' := by
  classical
  obtain ⟨e, he⟩ := unitSpan_min rd hτ hu
  refine ⟨univ.filter fun A => ¬ PairsReach rd P.B A, ?_, ?_⟩
  · have := bad_count rd κ (ccs.n - ccs.l - 1) P.L P.B _ hP.Lpos hB he
    rw [Nat.card_eq_fintype_card]
    convert this
  · intro A hA y hy T s acc wAcc hT hacc hsh
    have hr : PairsReach rd P.B A := by
      by_contra h
      exact hA (mem_filter.2 ⟨mem_univ _, h⟩)
    have hSz : SizesOK P ccs (⟨⟨κ, (ccs.n - ccs.l - 1) * P.L, matRows A⟩⟩ : Ajtai (Fin N → F)) := by
      refine ⟨hS, hnl, hhat, ⟨by simp [matRows], ?_⟩, rfl⟩
      intro row hrow
      obtain ⟨r, rfl⟩ := (List.mem_ofFn' _ _).1 hrow
      simp
    obtain ⟨proof, st, w'', s', h1, h2, -⟩ := C54_any_commitment rd P cs ccs _ x w hP hSz ht al hc hd hcs hw hx hsat fc0 hcomb0 hfs
      (pairSpan_of rd P.B A hr) y (by simpa [matRows] using hy) T s acc wAcc hT hacc hsh
    exact ⟨proof, st, w'', s', h1, h2⟩

end

section Units
variable {F C : Type} [Field F] [CommRing C]

theorem unit_of_dvd {Fp C : Type} [Field Fp] [CommRing C] [Algebra Fp C] {n : Nat} (hn : (n : Fp) ≠ 0) {a b : C} (h : a * b = n) : IsUnit a := by
  have h1 : IsUnit ((n : Nat) : C) := by
    have := (IsUnit.mk0 _ hn).map (algebraMap Fp C)
    rwa [map_natCast] at this
  rw [← h] at h1
  exact isUnit_of_mul_isUnit_left h1

/-- **C54**: `1 - X^N` is invertible in the rings of extension degree at least 2. -/
theorem C54_units_shipped :
    (∀ (F C : Type) [Field F] [CommRing C] [Algebra (ZMod pGoldilocks) F] [Algebra (ZMod pGoldilocks) C]
      (rd : RingData (ZMod pGoldilocks) F C 8 3), rd.X ^ 24 - rd.X ^ 12 + 1 = 0 → IsUnit (1 - rd.X ^ 8)) ∧
    (∀ (F C : Type) [Field F] [CommRing C] [Algebra (ZMod pBabyBear) F] [Algebra (ZMod pBabyBear) C]
      (rd : RingData (ZMod pBabyBear) F C 8 9), rd.X ^ 72 - rd.X ^ 36 + 1 = 0 → IsUnit (1 - rd.X ^ 8)) ∧
    (∀ (F C : Type) [Field F] [CommRing C] [Algebra (ZMod pFrog) F] [Algebra (ZMod pFrog) C]
      (rd : RingData (ZMod pFrog) F C 4 4), rd.X ^ 16 + 1 = 0 → IsUnit (1 - rd.X ^ 4)) := by
  refine ⟨?_, ?_, ?_⟩
  · intro F C _ _ _ _ rd hX
    refine unit_of_dvd (Fp := ZMod pGoldilocks) (n := 3) (by decide)
      (b := (∑ i ∈ range 6, (rd.X ^ 8) ^ i) + ∑ i ∈ range 3, (rd.X ^ 8) ^ i) ?_
    have h6 := mul_neg_geom_sum (rd.X ^ 8) 6
    have h3 := mul_neg_geom_sum (rd.X ^ 8) 3
    rw [mul_add, h6, h3]
    push_cast
    linear_combination (-(rd.X ^ 24 + rd.X ^ 12 + 1)) * hX
  · intro F C _ _ _ _ rd hX
    refine unit_of_dvd (Fp := ZMod pBabyBear) (n := 3) (by decide)
      (b := (∑ i ∈ range 18, (rd.X ^ 8) ^ i) + ∑ i ∈ range 9, (rd.X ^ 8) ^ i) ?_
    have h6 := mul_neg_geom_sum (rd.X ^ 8) 18
    have h3 := mul_neg_geom_sum (rd.X ^ 8) 9
    rw [mul_add, h6, h3]
    push_cast
    linear_combination (-(rd.X ^ 72 + rd.X ^ 36 + 1)) * hX
  · intro F C _ _ _ _ rd hX
    refine unit_of_dvd (Fp := ZMod pFrog) (n := 2) (by decide) (b := ∑ i ∈ range 4, (rd.X ^ 4) ^ i) ?_
    rw [mul_neg_geom_sum]
    push_cast
    linear_combination -hX

end Units

section Examples
open Verif.Example

/-- Over `F_7[X]/(X^2+1)` with one row and four columns, at most one matrix in seven fails: for the others every commitment
is accepted with the public input `0`. -/
example {σ : Type} : ∃ Bad : Finset (Fin 1 → Fin 4 → C49), Bad.card * 7 ≤ Nat.card (Fin 1 → Fin 4 → C49) ∧
    ∀ A ∉ Bad, ∀ y : C49, ∀ (T : Transcript F49 C49 σ) (s : σ) (acc : LCCCS C49) (wAcc : Witness C49 C49),
      (∀ s n, (T.bytes s n).1.length = n) → LcccsHolds ring49 parFs ccsFs ⟨⟨1, 4, matRows A⟩⟩ acc wAcc →
      WitShort ring49 (reach parFs.bSmall parFs.K) wAcc →
      ∃ proof st w'' s', nifsVerify ring49 parFs cs49 T s acc ⟨⟨[y]⟩, [0]⟩ proof ccsFs = .ok (st, s') ∧
        LcccsHolds ring49 parFs ccsFs ⟨⟨1, 4, matRows A⟩⟩ st w'' := by
  obtain ⟨Bad, h1, h2⟩ := C54_almost_all_matrices (σ := σ) ring49 (by decide)
    (by
      refine IsUnit.of_mul_eq_one ![⟨4, 4⟩] ?_
      decide) parFs cs49 ccsFs [0]
    (mkWit ring49 parFs 1 [0, 0, 0, 0]) 1 parFs_ok (by decide) ccsFs_shape (by decide) (by decide) rfl alignedFs charGt49 lsCharGt49
    lsCs49_total (mkWit_ok ring49 parFs (wl := 1) _ rfl) rfl
    (by
      have : ∀ i < 4, ccsRow ccsFs (([0] ++ [1]) ++ (mkWit ring49 parFs 1 [0, 0, 0, 0]).wCcs) i = 0 := by decide +kernel
      exact this) (fun _ => [])
    (by
      refine ⟨rfl, fun k hk => absurd hk (Nat.not_lt_zero k), ?_⟩
      decide +kernel)
    (fun k hk => absurd hk (Nat.not_lt_zero k))
  refine ⟨Bad, ?_, fun A hA y T s acc wAcc hT hacc hsh => h2 A hA ⟨[y]⟩ rfl T s acc wAcc hT hacc hsh⟩
  have h4 : (ccsFs.n - ccsFs.l - 1) * (parFs.L - 1) = 3 := by decide
  rw [ZMod.card, h4] at h1
  have key : ∀ m M : ℕ, m * 7 ^ 3 ≤ 7 ^ (1 * (2 * 1)) * M → m * 7 ≤ M := by
    intro m M h
    norm_num at h
    omega
  exact key _ _ h1

end Examples

end Verif.Props
