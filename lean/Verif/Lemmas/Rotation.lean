import Verif.Lemmas.Witness
import Verif.Model.Rotation
import Mathlib.Algebra.BigOperators.Fin

/-! Helper lemmas for `rotation.rs`. -/

set_option linter.unusedSectionVars false
set_option linter.unusedSimpArgs false

namespace Verif

open Finset Spec

section
variable {R S : Type} [CommRing R] [CommRing S]

theorem eqWeight_map (φ : R →+* S) (p : List R) (i : Nat) :
    eqWeight (p.map φ) i = φ (eqWeight p i) := by
  induction p generalizing i with
  | nil => simp [eqWeight_nil]
  | cons r p ih =>
    rw [List.map_cons, eqWeight_cons, eqWeight_cons, ih, map_mul]
    congr 1
    split <;> simp

theorem mle_map (φ : R →+* S) (f : Nat → R) (p : List R) :
    φ (mle f p) = mle (fun i => φ (f i)) (p.map φ) := by
  unfold mle
  rw [map_sum, List.length_map]
  apply sum_congr rfl
  intro i _
  rw [map_mul, eqWeight_map]

end

variable {Fp F C : Type} {N τ : Nat} [Field Fp] [Field F] [Algebra Fp F] [CommRing C] [Algebra Fp C]

/-- Coefficient `m` of `x`, embedded in `F`. -/
def cf (rd : RingData Fp F C N τ) (x : C) (m : Nat) : F :=
  if h : m < τ * N then algebraMap Fp F (rd.coeff x ⟨m, h⟩) else 0

theorem cf_eq (rd : RingData Fp F C N τ) (x : C) {m : Nat} (h : m < τ * N) :
    cf rd x m = algebraMap Fp F (rd.coeff x ⟨m, h⟩) := dif_pos h

theorem cf_zero (rd : RingData Fp F C N τ) (m : Nat) : cf rd (0 : C) m = 0 := by
  unfold cf; split <;> simp

theorem cf_sum (rd : RingData Fp F C N τ) {ι : Type} (s : Finset ι) (x : ι → C) (m : Nat) :
    cf rd (∑ i ∈ s, x i) m = ∑ i ∈ s, cf rd (x i) m := by
  unfold cf
  split
  · rw [map_sum, Finset.sum_apply, map_sum]
  · simp

theorem fhatEntry_cf (rd : RingData Fp F C N τ) (c : C) (j : Nat) (a : Fin N) :
    fhatEntry rd c j a = cf rd c (j * N + a) := rfl

/-- An element is the combination of the powers of `X` with its coefficients. -/
theorem sum_coeff_X (rd : RingData Fp F C N τ) (c : C) :
    ∑ i : Fin (τ * N), rd.coeff c i • rd.X ^ (i : Nat) = c := by
  apply rd.coeff.injective
  rw [map_sum]
  simp only [map_smul, rd.coeff_X]
  funext j
  rw [Finset.sum_apply]
  simp only [Pi.smul_apply, smul_eq_mul, Pi.single_apply, mul_ite, mul_one, mul_zero]
  simp

theorem cf_mul (rd : RingData Fp F C N τ) (a c : C) {m : Nat} (hm : m < τ * N) :
    cf rd (a * c) m = ∑ i ∈ range (τ * N), cf rd c i * cf rd (rd.X ^ i * a) m := by
  conv_lhs => rw [← sum_coeff_X rd c, mul_sum]
  rw [cf_sum, Finset.sum_range fun i => cf rd c i * cf rd (rd.X ^ i * a) m]
  apply sum_congr rfl
  intro i _
  rw [mul_smul_comm, cf_eq rd _ hm, map_smul, Pi.smul_apply, smul_eq_mul, map_mul, cf_eq rd c i.2,
    cf_eq rd _ hm, mul_comm a]

theorem coeffsList_getD (rd : RingData Fp F C N τ) (x : C) (m : Nat) :
    ((coeffsList rd x).map (algebraMap Fp F)).getD m 0 = cf rd x m := by
  unfold coeffsList cf
  rw [List.getD_eq_getElem?_getD, List.getElem?_map, List.getElem?_ofFn]
  split <;> simp

theorem coeffsList_length (rd : RingData Fp F C N τ) (x : C) : (coeffsList rd x).length = τ * N := by
  simp [coeffsList]

theorem zipAssign_getD_add {α : Type} (g : α → F) (a : List F) (b : List α) (h : a.length = b.length)
    (i : Nat) : (zipAssign (fun x y => x + g y) a b).getD i 0 = a.getD i 0 + (b.map g).getD i 0 := by
  rw [zipAssign_eq_zipWith _ _ _ h.le]
  simp only [List.getD_eq_getElem?_getD, List.getElem?_zipWith, List.getElem?_map]
  by_cases hi : i < a.length
  · simp [List.getElem?_eq_getElem hi, List.getElem?_eq_getElem (h ▸ hi : i < b.length)]
  · simp [List.getElem?_eq_none (not_lt.1 hi), List.getElem?_eq_none (h ▸ not_lt.1 hi : b.length ≤ i)]

theorem rotStep_length (rd : RingData Fp F C N τ) (acc : List F) (p : F × C) :
    (rotStep rd acc p).length = acc.length := zipAssign_length _ _ _

theorem rotStep_getD (rd : RingData Fp F C N τ) (acc : List F) (p : F × C) (h : acc.length = τ * N)
    (m : Nat) : (rotStep rd acc p).getD m 0 = acc.getD m 0 + p.1 * cf rd p.2 m := by
  unfold rotStep
  rw [zipAssign_getD_add (fun x => algebraMap Fp F x * p.1) _ _ (by rw [h, coeffsList_length])]
  congr 1
  rw [← coeffsList_getD, List.getD_eq_getElem?_getD, List.getD_eq_getElem?_getD, List.getElem?_map,
    List.getElem?_map]
  rcases (coeffsList rd p.2)[m]? with _ | x
  · simp
  · simp [mul_comm]

theorem foldl_rotStep (rd : RingData Fp F C N τ) (l : List (F × C)) (acc : List F)
    (h : acc.length = τ * N) :
    (l.foldl (rotStep rd) acc).length = τ * N ∧ ∀ m, (l.foldl (rotStep rd) acc).getD m 0
      = acc.getD m 0 + (l.map fun p => p.1 * cf rd p.2 m).sum := by
  induction l generalizing acc with
  | nil => simp [h]
  | cons p l ih =>
    obtain ⟨h1, h2⟩ := ih (rotStep rd acc p) (by rw [rotStep_length, h])
    refine ⟨h1, fun m => ?_⟩
    rw [List.foldl_cons, h2, rotStep_getD rd acc p h, List.map_cons, List.sum_cons, add_assoc]

/-- The value of `RotSum`. -/
def rotVal (rd : RingData Fp F C N τ) (a : C) (b : Nat → F) (m : Nat) : F :=
  ∑ i ∈ range (τ * N), b i * cf rd (rd.X ^ i * a) m

theorem rotSum_ok (rd : RingData Fp F C N τ) (a : C) (b : List F) (h : b.length = τ * N) :
    rotSum rd a b = .ok ((List.range (τ * N)).map (rotVal rd a fun i => b.getD i 0)) := by
  unfold rotSum
  rw [if_neg (by simpa using h)]
  obtain ⟨h1, h2⟩ := foldl_rotStep rd (b.zip (rotIter rd a b.length)) (List.replicate (τ * N) 0) (by simp)
  congr 1
  apply ext_getD h1 (by simp)
  intro m hm
  rw [h2, getD_map_range _ _ hm, List.getD_eq_getElem?_getD, List.getElem?_replicate, if_pos hm,
    Option.getD_some, zero_add]
  unfold rotVal
  rw [list_sum_eq_range _ (τ * N) (by simp [rotIter, h])]
  apply sum_congr rfl
  intro i hi
  have hi' := mem_range.1 hi
  simp [List.getD_eq_getElem?_getD, rotIter, List.getElem?_zip_eq_some, hi', h, List.zip, List.getElem?_zipWith]

/-- `RotSum` extends multiplication by `a` linearly. -/
theorem rotVal_comb (rd : RingData Fp F C N τ) (a : C) {ι : Type} (s : Finset ι) (w : ι → F) (c : ι → C)
    {m : Nat} (hm : m < τ * N) :
    rotVal rd a (fun i => ∑ k ∈ s, w k * cf rd (c k) i) m = ∑ k ∈ s, w k * cf rd (a * c k) m := by
  unfold rotVal
  simp only [cf_mul rd a _ hm, sum_mul, mul_sum]
  rw [sum_comm]
  apply sum_congr rfl
  intro k _
  apply sum_congr rfl
  intro i _
  ring

theorem flattenCoeffs_length (v : List (Fin N → F)) : (flattenCoeffs v).length = v.length * N := by
  unfold flattenCoeffs
  rw [flatten_length (L := N) _ (by
    intro l hl
    obtain ⟨x, _, rfl⟩ := List.mem_map.1 hl
    simp), List.length_map]

theorem flattenCoeffs_getD (v : List (Fin N → F)) (j : Nat) (a : Fin N) :
    (flattenCoeffs v).getD (j * N + a) 0 = v.getD j 0 a := by
  unfold flattenCoeffs
  rw [flatten_getD (L := N) 0 _ (by
    intro l hl
    obtain ⟨x, _, rfl⟩ := List.mem_map.1 hl
    simp) j a.2]
  rw [List.getD_eq_getElem?_getD, List.getD_eq_getElem?_getD, List.getD_eq_getElem?_getD, List.getElem?_map]
  rcases v[j]? with _ | x
  · simp
  · simp

theorem promoteCoeffs_ok (hN : 0 < N) (l : List F) {n : Nat} (h : l.length = n * N) :
    promoteCoeffs N l = some ((List.range n).map fun i => fun a : Fin N => l.getD (i * N + a) 0) := by
  unfold promoteCoeffs
  rw [if_pos (by rw [h]; exact Nat.dvd_mul_left N n), h, Nat.mul_div_cancel _ hN]

theorem tau_pos (rd : RingData Fp F C N τ) : 0 < τ := by
  rcases Nat.eq_zero_or_pos τ with h | h
  · exfalso
    subst h
    have hs : ∀ x y : C, x = y := by
      intro x y
      apply rd.coeff.injective
      funext i
      exact absurd i.2 (by simp)
    have := hs (rd.crt.symm 0) (rd.crt.symm 1)
    have h2 : (0 : Fin N → F) = 1 := rd.crt.symm.injective this
    exact zero_ne_one (congrFun h2 ⟨0, rd.npos⟩)
  · exact h

theorem addIndexed_ok (res sum : List F) (h : res.length = sum.length) :
    ∃ r, addIndexed res sum = .ok r ∧ r.length = sum.length ∧
      ∀ m, r.getD m 0 = res.getD m 0 + sum.getD m 0 := by
  refine ⟨_, if_pos h.ge, by rw [zipAssign_length, h], fun m => ?_⟩
  have := zipAssign_getD_add id res sum h m
  simpa using this

theorem flattenCoeffs_zero (n m : Nat) :
    (flattenCoeffs (List.replicate n (0 : Fin N → F))).getD m 0 = 0 := by
  unfold flattenCoeffs
  rw [List.getD_eq_getElem?_getD]
  rcases h : ((List.replicate n (0 : Fin N → F)).map List.ofFn).flatten[m]? with _ | x
  · rfl
  · have := List.mem_of_getElem? h
    simp only [List.map_replicate, List.mem_flatten, List.mem_replicate] at this
    obtain ⟨l, ⟨_, rfl⟩, hx⟩ := this
    simp only [List.mem_ofFn, Pi.zero_apply] at hx
    obtain ⟨_, hx⟩ := hx
    simpa using hx.symm

theorem rotLin_fold (rd : RingData Fp F C N τ) (l : List (C × List (Fin N → F))) (res : List F)
    (hres : res.length = τ * N) (hl : ∀ p ∈ l, p.2.length = τ) :
    ∃ r, foldRes (rotLinStep rd) res l = .ok r ∧ r.length = τ * N ∧ ∀ m < τ * N, r.getD m 0
      = res.getD m 0 + (l.map fun p => rotVal rd p.1 (fun i => (flattenCoeffs p.2).getD i 0) m).sum := by
  induction l generalizing res with
  | nil => exact ⟨res, rfl, hres, by simp⟩
  | cons p l ih =>
    have hp := hl p (by simp)
    have hf : (flattenCoeffs p.2).length = τ * N := by rw [flattenCoeffs_length, hp]
    have h1 := rotSum_ok rd p.1 (flattenCoeffs p.2) hf
    obtain ⟨r1, h2, h3, h4⟩ := addIndexed_ok res
      ((List.range (τ * N)).map (rotVal rd p.1 fun i => (flattenCoeffs p.2).getD i 0)) (by simp [hres])
    have h5 : rotLinStep rd res p = .ok r1 := by
      unfold rotLinStep
      rw [h1]
      exact h2
    obtain ⟨r, e1, e2, e3⟩ := ih r1 (by rw [h3]; simp) fun q hq => hl q (by simp [hq])
    refine ⟨r, ?_, e2, fun m hm => ?_⟩
    · unfold foldRes
      rw [h5]
      exact e1
    · rw [e3 m hm, h4, getD_map_range _ _ hm, List.map_cons, List.sum_cons, add_assoc]

theorem rotLinComb_ok (rd : RingData Fp F C N τ) (rhos : List C) (thetas : List (List (Fin N → F)))
    (h : rhos.length = thetas.length) (hne : thetas ≠ []) (hl : ∀ t ∈ thetas, t.length = τ) :
    rotLinComb rd rhos thetas = .ok ((List.range τ).map fun j => fun a : Fin N =>
      ∑ k ∈ range rhos.length, rotVal rd (rhos.getD k 0)
        (fun i => (flattenCoeffs (thetas.getD k [])).getD i 0) (j * N + a)) := by
  obtain ⟨t0, ts, rfl⟩ := List.exists_cons_of_ne_nil hne
  have h0 : t0.length = τ := hl t0 (by simp)
  obtain ⟨r, e1, e2, e3⟩ := rotLin_fold rd (rhos.zip (t0 :: ts))
    (flattenCoeffs (List.replicate t0.length (0 : Fin N → F)))
    (by rw [flattenCoeffs_length, List.length_replicate, h0])
    (fun p hp => hl p.2 (List.of_mem_zip hp).2)
  unfold rotLinComb
  rw [if_neg (by simpa using h)]
  simp only [e1, bind_ok', promoteCoeffs_ok rd.npos r e2]
  congr 1
  apply List.map_congr_left
  intro j hj
  funext a
  have hm := slot_lt (List.mem_range.1 hj) a
  rw [e3 _ hm, flattenCoeffs_zero, zero_add, list_sum_eq_range _ rhos.length (by simp)]
  apply sum_congr rfl
  intro k hk
  have hk' := mem_range.1 hk
  have hk2 : k < (t0 :: ts).length := h ▸ hk'
  simp only [List.getD_eq_getElem?_getD, List.getElem?_map, List.getElem?_zip_eq_some, List.zip,
    List.getElem?_zipWith, List.getElem?_eq_getElem hk', List.getElem?_eq_getElem hk2, Option.map_some,
    Option.getD_some]

/-- Slot `a` of evaluation `j` at a point with constant coordinates. -/
theorem vEval_const [DecidableEq F] (rd : RingData Fp F C N τ) (fc : List C) (p : List F) (j : Nat) (a : Fin N) :
    vEval rd fc (p.map (algebraMap F (Fin N → F))) j a
      = ∑ i ∈ range (2 ^ p.length), eqWeight p i * cf rd (fc.getD i 0) (j * N + a) := by
  unfold vEval
  have h := mle_map (Pi.evalRingHom (fun _ : Fin N => F) a)
    (fun i => fhatEntry rd (fc.getD i 0) j) (p.map (algebraMap F (Fin N → F)))
  have e : ((p.map (algebraMap F (Fin N → F))).map (Pi.evalRingHom (fun _ : Fin N => F) a)) = p := by
    rw [List.map_map]
    conv_rhs => rw [← List.map_id p]
    apply List.map_congr_left
    intro x _
    simp
  rw [e] at h
  simp only [Pi.evalRingHom_apply] at h
  rw [h]
  unfold mle
  apply sum_congr rfl
  intro i _
  change fhatEntry rd (fc.getD i 0) j a * _ = _
  rw [fhatEntry_cf, mul_comm]

theorem rotLinComb_vEval [DecidableEq F] (rd : RingData Fp F C N τ) {n K : Nat} (hK : 1 ≤ K) (rho : Nat → C)
    (fs : Nat → List C) (f : List C) (hc : IsComb K rho fs f n) (p : List F) :
    rotLinComb rd ((List.range K).map rho) ((List.range K).map fun k => (List.range τ).map
        (vEval rd (fs k) (p.map (algebraMap F (Fin N → F)))))
      = .ok ((List.range τ).map (vEval rd f (p.map (algebraMap F (Fin N → F))))) := by
  rw [rotLinComb_ok rd _ _ (by simp) (by
      intro h
      have := congrArg List.length h
      simp at this
      omega) (by
      intro t ht
      obtain ⟨k, _, rfl⟩ := List.mem_map.1 ht
      simp)]
  congr 1
  apply List.map_congr_left
  intro j hj
  funext a
  have hm := slot_lt (List.mem_range.1 hj) a
  rw [vEval_const]
  simp only [hc.eq_all, cf_sum, mul_sum, List.length_map, List.length_range]
  rw [sum_comm]
  apply sum_congr rfl
  intro k hk
  have hk' := mem_range.1 hk
  rw [getD_map_range _ _ hk']
  have e : ∀ i < τ * N, (flattenCoeffs (((List.range K).map fun k => (List.range τ).map
      (vEval rd (fs k) (p.map (algebraMap F (Fin N → F))))).getD k [])).getD i 0
      = ∑ l ∈ range (2 ^ p.length), eqWeight p l * cf rd ((fs k).getD l 0) i := by
    intro i hi
    have hkk : ((List.range K).map fun k => (List.range τ).map
      (vEval rd (fs k) (p.map (algebraMap F (Fin N → F))))).getD k []
      = (List.range τ).map (vEval rd (fs k) (p.map (algebraMap F (Fin N → F)))) := by
      simp [List.getD_eq_getElem?_getD, hk']
    have hq : i / N < τ := (Nat.div_lt_iff_lt_mul rd.npos).2 hi
    have hr : i % N < N := Nat.mod_lt _ rd.npos
    have hi2 : i = i / N * N + (⟨i % N, hr⟩ : Fin N) := by
      change i = i / N * N + i % N
      rw [Nat.mul_comm]
      exact (Nat.div_add_mod i N).symm
    rw [hkk]
    conv_lhs => rw [hi2]
    rw [flattenCoeffs_getD, getD_map_range _ _ hq, vEval_const, ← hi2]
  have e2 : rotVal rd (rho k) (fun i => (flattenCoeffs (((List.range K).map fun k => (List.range τ).map
      (vEval rd (fs k) (p.map (algebraMap F (Fin N → F))))).getD k [])).getD i 0) (j * N + a)
      = rotVal rd (rho k) (fun i => ∑ l ∈ range (2 ^ p.length), eqWeight p l * cf rd ((fs k).getD l 0) i)
        (j * N + a) := by
    unfold rotVal
    apply sum_congr rfl
    intro i hi
    beta_reduce
    rw [e i (mem_range.1 hi)]
  rw [e2, rotVal_comb rd _ _ _ _ hm]

end Verif
