import Verif.Lemmas.FoldingComplete
import Verif.Props.Folding
import Mathlib.Algebra.Module.Basic
import Mathlib.Algebra.Module.BigOperators

/-!
# Extraction from several runs of the folding step

Everything the folding step outputs is linear in the challenges, over the ring of coefficient forms.
-/

set_option linter.unusedSectionVars false
set_option linter.unusedSimpArgs false

namespace Verif

open Finset Spec Props

/-! ## Linear algebra -/

section Linear
variable {C M : Type} [CommRing C] [AddCommGroup M] [Module C M]

theorem extract_one {K i : Nat} {c c' : Nat → C} {x : Nat → M} {v v' : M} (hv : v = ∑ k ∈ range K, c k • x k)
    (hv' : v' = ∑ k ∈ range K, c' k • x k) (hi : i < K) (hne : ∀ k < K, k ≠ i → c k = c' k) {d : C}
    (hd : d * (c i - c' i) = 1) : x i = d • v + (-d) • v' := by
  have h1 : v - v' = (c i - c' i) • x i := by
    rw [hv, hv', ← sum_sub_distrib, sum_eq_single i]
    · rw [sub_smul]
    · intro k hk hki
      rw [hne k (mem_range.1 hk) hki, sub_self]
    · intro h
      exact absurd (mem_range.2 hi) h
  rw [neg_smul, ← sub_eq_add_neg, ← smul_sub, h1, smul_smul, hd, one_smul]

theorem extract_last {K : Nat} {c : Nat → C} {x : Nat → M} {v : M} (hv : v = ∑ k ∈ range (K + 1), c k • x k)
    (hc : c K = 1) : x K = ∑ k ∈ range (K + 1), (if k < K then -c k else 1) • (if k < K then x k else v) := by
  have h1 : ∑ k ∈ range K, (if k < K then -c k else 1) • (if k < K then x k else v)
      = ∑ k ∈ range K, (-c k) • x k := by
    apply sum_congr rfl
    intro k hk
    rw [if_pos (mem_range.1 hk), if_pos (mem_range.1 hk)]
  rw [sum_range_succ, h1, if_neg (lt_irrefl K), if_neg (lt_irrefl K), one_smul]
  rw [sum_range_succ, hc, one_smul] at hv
  rw [hv]
  simp only [neg_smul, sum_neg_distrib]
  abel

end Linear

variable {Fp F C σ : Type} {N τ : Nat} [Field Fp] [Field F] [DecidableEq F] [Algebra Fp F] [CommRing C]
  [Algebra Fp C]

theorem cf_add (rd : RingData Fp F C N τ) (x y : C) (m : Nat) : cf rd (x + y) m = cf rd x m + cf rd y m := by
  unfold cf
  split <;> simp

/-- Vectors of `τ N` scalars as a module over the coefficient forms, with `RotSum` as scalar multiplication. -/
@[instance_reducible] def rotModule (rd : RingData Fp F C N τ) : Module C (Fin (τ * N) → F) where
  smul a θ := fun m => rotVal rd a (fun i => if h : i < τ * N then θ ⟨i, h⟩ else 0) m
  one_smul θ := by
    funext m
    change rotVal rd 1 _ _ = _
    unfold rotVal
    rw [sum_eq_single (m : Nat)]
    · have e : cf rd (rd.X ^ (m : Nat) * 1) m = 1 := by
        rw [mul_one, cf_eq rd _ m.2, rd.coeff_X m]
        simp
      beta_reduce
      rw [e, dif_pos m.2, mul_one]
    · intro i hi him
      have hi' := mem_range.1 hi
      have e : cf rd (rd.X ^ i * 1) m = 0 := by
        rw [mul_one, cf_eq rd _ m.2, rd.coeff_X ⟨i, hi'⟩, Pi.single_eq_of_ne, map_zero]
        intro h
        exact him (congrArg Fin.val h).symm
      rw [e, mul_zero]
    · intro h
      exact absurd (mem_range.2 m.2) h
  mul_smul a b θ := by
    funext m
    change rotVal rd (a * b) _ m = rotVal rd a (fun i => if h : i < τ * N then rotVal rd b _ (⟨i, h⟩ : Fin (τ * N)) else 0) m
    have e : rotVal rd a (fun i => if h : i < τ * N then
          rotVal rd b (fun i => if h : i < τ * N then θ ⟨i, h⟩ else 0) (⟨i, h⟩ : Fin (τ * N)) else 0) m
        = rotVal rd a (fun i => ∑ k ∈ range (τ * N), (if h : k < τ * N then θ ⟨k, h⟩ else 0)
          * cf rd (rd.X ^ k * b) i) m := by
      unfold rotVal
      apply sum_congr rfl
      intro i hi
      beta_reduce
      rw [dif_pos (mem_range.1 hi)]
    rw [e, rotVal_comb rd a _ _ _ m.2]
    unfold rotVal
    apply sum_congr rfl
    intro k _
    congr 2
    ring
  smul_zero a := by
    funext m
    change rotVal rd a _ _ = _
    unfold rotVal
    simp
  smul_add a x y := by
    funext m
    change rotVal rd a _ _ = rotVal rd a _ _ + rotVal rd a _ _
    unfold rotVal
    rw [← sum_add_distrib]
    apply sum_congr rfl
    intro i hi
    beta_reduce
    rw [dif_pos (mem_range.1 hi), dif_pos (mem_range.1 hi), dif_pos (mem_range.1 hi), Pi.add_apply, add_mul]
  add_smul a b x := by
    funext m
    change rotVal rd (a + b) _ _ = rotVal rd a _ _ + rotVal rd b _ _
    unfold rotVal
    rw [← sum_add_distrib]
    apply sum_congr rfl
    intro i _
    rw [mul_add, cf_add, mul_add]
  zero_smul x := by
    funext m
    change rotVal rd 0 _ _ = _
    unfold rotVal
    simp [cf_zero]

/-! ## Combinations of statements -/

/-- The scalars of `τ` evaluations. -/
def flatV (τ : Nat) (v : List (Fin N → F)) : Fin (τ * N) → F := fun m => (flattenCoeffs v).getD m 0

theorem flatV_getD (v : List (Fin N → F)) {j : Nat} (hj : j < τ) (a : Fin N) :
    flatV τ v ⟨j * N + a, slot_lt hj a⟩ = v.getD j 0 a := flattenCoeffs_getD v j a

theorem flatV_ext {v w : List (Fin N → F)} (hv : v.length = τ) (hw : w.length = τ) (h : flatV τ v = flatV τ w) :
    v = w := by
  apply ext_getD hv hw
  intro j hj
  funext a
  rw [← flatV_getD v hj a, ← flatV_getD w hj a, h]

/-- `st` is the combination of `n` statements with coefficients `c`, evaluations being combined by `RotSum`. -/
structure StComb (rd : RingData Fp F C N τ) (ccs : CCS (Fin N → F)) (scheme : Ajtai (Fin N → F)) (n : Nat) (c : Nat → C)
    (S : Nat → LCCCS (Fin N → F)) (st : LCCCS (Fin N → F)) : Prop where
  cm : IsComb n (fun k => rd.crt (c k)) (fun k => (S k).cm.val) st.cm.val scheme.matrix.vals.length
  x : IsComb n (fun k => rd.crt (c k)) (fun k => (S k).x_w ++ [(S k).h]) (st.x_w ++ [st.h]) (ccs.l + 1)
  u : IsComb n (fun k => rd.crt (c k)) (fun k => (S k).u) st.u ccs.M.length
  vlen : st.v.length = τ
  vlens : ∀ k < n, (S k).v.length = τ
  v : flatV τ st.v = ∑ k ∈ range n, (rotModule rd).toSMul.smul (c k) (flatV τ (S k).v)

theorem vEval_flat (rd : RingData Fp F C N τ) (fc : List C) (p : List F) (m : Fin (τ * N)) :
    flatV τ ((List.range τ).map (vEval rd fc (p.map (algebraMap F (Fin N → F))))) m
      = ∑ l ∈ range (2 ^ p.length), eqWeight p l * cf rd (fc.getD l 0) m := by
  have hq : (m : Nat) / N < τ := (Nat.div_lt_iff_lt_mul rd.npos).2 m.2
  have hr : (m : Nat) % N < N := Nat.mod_lt _ rd.npos
  have hi2 : (m : Nat) = (m : Nat) / N * N + (⟨(m : Nat) % N, hr⟩ : Fin N) := by
    change (m : Nat) = (m : Nat) / N * N + (m : Nat) % N
    exact (Nat.div_add_mod' _ N).symm
  unfold flatV
  conv_lhs => rw [hi2]
  rw [flattenCoeffs_getD, getD_map_range _ _ hq, vEval_const, ← hi2]

theorem rot_smul (rd : RingData Fp F C N τ) (a : C) (θ : Fin (τ * N) → F) (m : Fin (τ * N)) :
    (rotModule rd).toSMul.smul a θ m = rotVal rd a (fun i => if h : i < τ * N then θ ⟨i, h⟩ else 0) m := rfl

/-- The linearized relation, at a fixed point with base field coordinates, is closed under combinations. -/
theorem lcccs_comb (rd : RingData Fp F C N τ) (P : Params) (ccs : CCS (Fin N → F)) (scheme : Ajtai (Fin N → F))
    (hS : SizesOK P ccs scheme) {n : Nat} (hn : 1 ≤ n) (c : Nat → C)
    (S : Nat → LCCCS (Fin N → F)) (W : Nat → Witness (Fin N → F) C)
    (hk : ∀ k < n, LcccsHolds rd P ccs scheme (S k) (W k)) (p : List F)
    (hr : ∀ k < n, (S k).r = p.map (algebraMap F (Fin N → F))) (st : LCCCS (Fin N → F))
    (hst : st.r = p.map (algebraMap F (Fin N → F))) (hc : StComb rd ccs scheme n c S st) (fc : List C)
    (hfc : IsComb n c (fun k => (W k).fCoeff) fc ((ccs.n - ccs.l - 1) * P.L)) :
    LcccsHolds rd P ccs scheme st (mkWit rd P (ccs.n - ccs.l - 1) fc) := by
  set wl := ccs.n - ccs.l - 1 with hwl
  have hw := mkWit_ok rd P fc (wl := wl) hfc.len
  have hf : IsComb n (fun k => rd.crt (c k)) (fun k => (W k).f) (fc.map rd.crt) (wl * P.L) := by
    have h := map_crt_comb rd hfc
    refine ⟨h.len, fun k hk' => by rw [(hk k hk').witOK.f]; exact h.lens k hk', fun i hi => ?_⟩
    rw [h.eq i hi]
    apply sum_congr rfl
    intro k hk'
    rw [(hk k (mem_range.1 hk')).witOK.f]
  have hWf : ∀ k < n, (W k).f.length = wl * P.L := hf.lens
  refine ⟨hw, ?_, ?_, ⟨?_, ?_, ?_⟩⟩
  · change scheme.commit (fc.map rd.crt) = _
    rw [commit_ok scheme _ (by rw [List.length_map, hfc.len, hS.width])]
    have h1 := commit_comb hf scheme
    have h2 : IsComb n (fun k => rd.crt (c k)) (fun k => scheme.matrix.vals.map fun row => dot row (W k).f)
        st.cm.val scheme.matrix.vals.length := by
      refine ⟨hc.cm.len, by simp, fun i hi => ?_⟩
      rw [hc.cm.eq i hi]
      apply sum_congr rfl
      intro k hk'
      have h3 := (hk k (mem_range.1 hk')).cm
      rw [commit_ok scheme _ (by rw [hWf k (mem_range.1 hk'), hS.width])] at h3
      rw [← Except.ok.inj h3]
    have h3 := h1.unique h2
    rw [h3]
  · have := hc.x.len
    rw [List.length_append, List.length_singleton] at this
    omega
  · rw [hst, ← hr 0 (by omega)]
    exact (hk 0 (by omega)).evals.rlen
  · rw [hw.vEval st.r, hst]
    apply flatV_ext hc.vlen (by simp)
    rw [hc.v]
    funext m
    change _ = flatV τ ((List.range τ).map (vEval rd fc _)) m
    rw [vEval_flat, Finset.sum_apply]
    simp only [hfc.eq_all, cf_sum, mul_sum]
    rw [sum_comm]
    apply sum_congr rfl
    intro k hk'
    have hk2 := mem_range.1 hk'
    rw [rot_smul]
    have e : (S k).v = (List.range τ).map (vEval rd (W k).fCoeff (p.map (algebraMap F (Fin N → F)))) := by
      rw [(hk k hk2).evals.v, (hk k hk2).witOK.vEval, hr k hk2]
    rw [← rotVal_comb rd _ _ _ _ m.2]
    unfold rotVal
    apply sum_congr rfl
    intro i hi
    beta_reduce
    rw [dif_pos (mem_range.1 hi), e, vEval_flat]
  · have hwc : IsComb n (fun k => rd.crt (c k)) (fun k => (W k).wCcs) (mkWit rd P wl fc).wCcs wl := by
      have h1 := gadget_comb hf (fun l => (P.B : Fin N → F) ^ l)
      refine ⟨hw.wlen, fun k hk' => (hk k hk').witOK.wlen, fun i hi => ?_⟩
      have h2 := h1.eq i hi
      rw [getD_map_range _ _ hi] at h2
      rw [hw.w i hi]
      refine Eq.trans h2 ?_
      apply sum_congr rfl
      intro k hk'
      rw [getD_map_range _ _ hi, (hk k (mem_range.1 hk')).witOK.w i hi]
    have hz0 := hc.x.append hwc
    apply ext_getD hc.u.len (by simp)
    intro i hi
    rw [hc.u.eq i hi]
    simp only [List.getD_eq_getElem?_getD, List.getElem?_map, List.getElem?_eq_getElem hi, Option.map_some,
      Option.getD_some]
    rw [mle_comb (fun j => mulVec_comb hz0 ccs.M[i] j)]
    apply sum_congr rfl
    intro k hk'
    have hk2 := mem_range.1 hk'
    congr 1
    rw [(hk k hk2).evals.u, hr k hk2, hst]
    simp [hi]

/-! ## Combinations of combinations -/

theorem IsComb.extract {R : Type} [CommRing R] {K n i : Nat} {c c' : Nat → R} {vs : Nat → List R} {v v' : List R}
    (h : IsComb K c vs v n) (h' : IsComb K c' vs v' n) (hi : i < K) (hne : ∀ k < K, k ≠ i → c k = c' k) {d : R}
    (hd : d * (c i - c' i) = 1) :
    IsComb 2 (fun k => if k = 0 then d else -d) (fun k => if k = 0 then v else v') (vs i) n := by
  refine ⟨h.lens i hi, fun k _ => ?_, fun j hj => ?_⟩
  · split
    · exact h.len
    · exact h'.len
  · have := extract_one (C := R) (M := R) (x := fun k => (vs k).getD j 0) (by simpa using h.eq j hj)
      (by simpa using h'.eq j hj) hi hne hd
    rw [sum_range_succ, sum_range_one]
    simpa using this

theorem IsComb.last {R : Type} [CommRing R] {K n : Nat} {c : Nat → R} {vs : Nat → List R} {v : List R}
    (h : IsComb (K + 1) c vs v n) (hc : c K = 1) :
    IsComb (K + 1) (fun k => if k < K then -c k else 1) (fun k => if k < K then vs k else v) (vs K) n := by
  refine ⟨h.lens K (by omega), fun k hk => ?_, fun j hj => ?_⟩
  · split
    · exact h.lens k hk
    · exact h.len
  · have := extract_last (C := R) (M := R) (x := fun k => (vs k).getD j 0) (by simpa using h.eq j hj) hc
    refine this.trans ?_
    apply sum_congr rfl
    intro k _
    rw [smul_eq_mul]
    split <;> rfl

theorem StComb.extract {rd : RingData Fp F C N τ} {ccs : CCS (Fin N → F)} {scheme : Ajtai (Fin N → F)} {K i : Nat}
    {c c' : Nat → C} {S : Nat → LCCCS (Fin N → F)} {st st' : LCCCS (Fin N → F)} (h : StComb rd ccs scheme K c S st)
    (h' : StComb rd ccs scheme K c' S st') (hi : i < K) (hne : ∀ k < K, k ≠ i → c k = c' k) {d : C}
    (hd : d * (c i - c' i) = 1) :
    StComb rd ccs scheme 2 (fun k => if k = 0 then d else -d) (fun k => if k = 0 then st else st') (S i) := by
  have hd' : rd.crt d * (rd.crt (c i) - rd.crt (c' i)) = 1 := by rw [← map_sub, ← map_mul, hd, map_one]
  have hne' : ∀ k < K, k ≠ i → rd.crt (c k) = rd.crt (c' k) := fun k hk hki => by rw [hne k hk hki]
  have conv : ∀ {n : Nat} {f : LCCCS (Fin N → F) → List (Fin N → F)},
      IsComb K (fun k => rd.crt (c k)) (fun k => f (S k)) (f st) n →
      IsComb K (fun k => rd.crt (c' k)) (fun k => f (S k)) (f st') n →
      IsComb 2 (fun k => rd.crt (if k = 0 then d else -d)) (fun k => f (if k = 0 then st else st')) (f (S i)) n := by
    intro n f h1 h2
    have h3 := h1.extract h2 hi hne' hd'
    have e1 : (fun k : Nat => rd.crt (if k = 0 then d else -d)) = fun k => if k = 0 then rd.crt d else -rd.crt d := by
      funext k
      split
      · rfl
      · rw [map_neg]
    have e2 : (fun k : Nat => f (if k = 0 then st else st')) = fun k => if k = 0 then f st else f st' := by
      funext k
      split <;> rfl
    rw [e1, e2]
    exact h3
  refine ⟨conv (f := fun s => s.cm.val) h.cm h'.cm, conv (f := fun s => s.x_w ++ [s.h]) h.x h'.x,
    conv (f := fun s => s.u) h.u h'.u, h.vlens i hi, fun k _ => ?_, ?_⟩
  · split
    · exact h.vlen
    · exact h'.vlen
  · let _ := rotModule rd
    have := extract_one (C := C) (x := fun k => flatV τ (S k).v) h.v h'.v hi hne hd
    rw [sum_range_succ, sum_range_one]
    exact this

theorem StComb.last {rd : RingData Fp F C N τ} {ccs : CCS (Fin N → F)} {scheme : Ajtai (Fin N → F)} {K : Nat}
    {c : Nat → C} {S : Nat → LCCCS (Fin N → F)} {st : LCCCS (Fin N → F)} (h : StComb rd ccs scheme (K + 1) c S st)
    (hc : c K = 1) :
    StComb rd ccs scheme (K + 1) (fun k => if k < K then -c k else 1) (fun k => if k < K then S k else st) (S K) := by
  have conv : ∀ {n : Nat} {f : LCCCS (Fin N → F) → List (Fin N → F)},
      IsComb (K + 1) (fun k => rd.crt (c k)) (fun k => f (S k)) (f st) n →
      IsComb (K + 1) (fun k => rd.crt (if k < K then -c k else 1)) (fun k => f (if k < K then S k else st)) (f (S K)) n := by
    intro n f h1
    have h3 := h1.last (by rw [hc, map_one])
    have e1 : (fun k : Nat => rd.crt (if k < K then -c k else 1)) = fun k => if k < K then -rd.crt (c k) else 1 := by
      funext k
      split
      · rw [map_neg]
      · rw [map_one]
    have e2 : (fun k : Nat => f (if k < K then S k else st)) = fun k => if k < K then f (S k) else f st := by
      funext k
      split <;> rfl
    rw [e1, e2]
    exact h3
  refine ⟨conv (f := fun s => s.cm.val) h.cm, conv (f := fun s => s.x_w ++ [s.h]) h.x,
    conv (f := fun s => s.u) h.u, h.vlens K (by omega), fun k hk => ?_, ?_⟩
  · split
    · exact h.vlens k hk
    · exact h.vlen
  · let _ := rotModule rd
    have := extract_last (C := C) (x := fun k => flatV τ (S k).v) h.v hc
    refine this.trans ?_
    apply sum_congr rfl
    intro k _
    split <;> rfl

end Verif
