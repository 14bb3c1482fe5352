import Verif.Spec.PlusRange
import Verif.Props.PlusSetCheck

/-!
# Lemmas: the range check of `latticefold-plus`
-/

set_option linter.unusedSectionVars false
set_option linter.unusedSimpArgs false

namespace Verif.Plus

open Finset Spec

variable {F R σ : Type} {d : Nat}
variable [Field F] [CommRing R] [Algebra F R]

theorem foldRes_unit_iff {α : Type} (f : Unit → α → Res Unit) (l : List α) :
    foldRes f () l = .ok () ↔ ∀ a ∈ l, f () a = .ok () := by
  induction l with
  | nil => simp [foldRes]
  | cons a l ih =>
    simp only [foldRes, List.mem_cons, forall_eq_or_imp]
    cases h : f () a with
    | error e => simp
    | ok u => cases u; simpa using ih

theorem scalar_entry {M : SpMat R} (h : ScalarMat F M) (i j : Nat) : ∃ a : F, entry M i j = algebraMap F R a := by
  unfold entry
  have hr : ∀ t ∈ M.coeffs.getD i [], ∃ a : F, t.1 = algebraMap F R a := by
    intro t ht
    by_cases hi : i < M.coeffs.length
    · rw [List.getD_eq_getElem?_getD, List.getElem?_eq_getElem hi, Option.getD_some] at ht
      exact h _ (List.getElem_mem hi) t ht
    · rw [List.getD_eq_getElem?_getD, List.getElem?_eq_none (by omega)] at ht
      simp at ht
  generalize M.coeffs.getD i [] = row at hr
  induction row with
  | nil => exact ⟨0, by simp⟩
  | cons t row ih =>
    obtain ⟨a, ha⟩ := ih fun t ht => hr t (List.mem_cons_of_mem _ ht)
    obtain ⟨b, hb⟩ := hr t (List.mem_cons_self ..)
    rw [List.filter_cons]
    split
    · exact ⟨b + a, by rw [List.map_cons, List.sum_cons, ha, hb, map_add]⟩
    · exact ⟨a, ha⟩

/-- Linear forms that agree on the vectors agree on the products with a scalar matrix. -/
theorem linear_mulVec {M : SpMat R} (h : ScalarMat F M) (φ ψ : R →ₗ[F] F) (z w : List R) (i : Nat)
    (hz : ∀ j < M.ncols, φ (z.getD j 0) = ψ (w.getD j 0)) : φ (mulVec M z i) = ψ (mulVec M w i) := by
  unfold mulVec
  rw [map_sum, map_sum]
  apply sum_congr rfl
  intro j hj
  obtain ⟨a, ha⟩ := scalar_entry (F := F) h i j
  rw [ha, ← Algebra.smul_def, ← Algebra.smul_def, map_smul, map_smul, hz j (mem_range.1 hj)]

/-- The same for a combination of several vectors. -/
theorem linear_mulVec_sum {M : SpMat R} (h : ScalarMat F M) (φ ψ : R →ₗ[F] F) (k : Nat) (c : Nat → F) (z : Nat → List R)
    (w : List R) (i : Nat) (hz : ∀ j < M.ncols, ∑ κ ∈ range k, c κ * φ ((z κ).getD j 0) = ψ (w.getD j 0)) :
    ∑ κ ∈ range k, c κ * φ (mulVec M (z κ) i) = ψ (mulVec M w i) := by
  unfold mulVec
  simp only [map_sum, mul_sum]
  rw [sum_comm]
  apply sum_congr rfl
  intro j hj
  obtain ⟨a, ha⟩ := scalar_entry (F := F) h i j
  rw [ha, ← Algebra.smul_def, map_smul, ← hz j (mem_range.1 hj), smul_eq_mul, mul_sum]
  apply sum_congr rfl
  intro κ _
  rw [← Algebra.smul_def, map_smul, smul_eq_mul]
  ring

theorem coeffs_length (pr : PlusRing F R d) (x : R) : (pr.coeffs x).length = d := by simp [PlusRing.coeffs]

theorem coeffs_getD (pr : PlusRing F R d) (x : R) (j : Nat) (hj : j < d) :
    (pr.coeffs x).getD j 0 = pr.coeff x ⟨j, hj⟩ := by
  simp [PlusRing.coeffs, List.getD_eq_getElem?_getD, hj]

theorem coeffs_ext (pr : PlusRing F R d) (x : R) (g : Nat → F) (h : ∀ j : Fin d, pr.coeff x j = g j) :
    pr.coeffs x = (List.range d).map g := by
  apply List.ext_getElem
  · simp [coeffs_length]
  · intro i h1 h2
    have hi : i < d := by rwa [coeffs_length] at h1
    have := coeffs_getD pr x i hi
    rw [List.getD_eq_getElem?_getD, List.getElem?_eq_getElem h1, Option.getD_some] at this
    rw [this, h ⟨i, hi⟩]
    simp

/-! ### Recombining the columns -/

theorem zipAssign_length {α β : Type} (f : α → β → α) (l : List α) (m : List β) : (zipAssign f l m).length = l.length := by
  induction l generalizing m with
  | nil => cases m <;> rfl
  | cons a l ih =>
    cases m with
    | nil => rfl
    | cons b m => simp [zipAssign, ih]

theorem zipAssign_getD (f : R → R → R) (hf : ∀ a, f a 0 = a) (l m : List R) (j : Nat) (hj : j < l.length) :
    (zipAssign f l m).getD j 0 = f (l.getD j 0) (m.getD j 0) := by
  induction l generalizing m j with
  | nil => simp at hj
  | cons a l ih =>
    cases m with
    | nil => simp [zipAssign, hf]
    | cons b m =>
      cases j with
      | zero => simp [zipAssign]
      | succ j => simpa [zipAssign] using ih m j (by simpa using hj)

theorem uComb_aux (us : List (List R)) (o : Nat) (acc : List R) :
    let r := (us.zipIdx o).foldl (fun acc p =>
      zipAssign (fun a u => a + u * algebraMap F R (((d / 2 : Nat) : F) ^ p.2)) acc p.1) acc
    r.length = acc.length ∧ ∀ j < acc.length, r.getD j 0 = acc.getD j 0
      + ∑ i ∈ range us.length, (us.getD i []).getD j 0 * algebraMap F R (((d / 2 : Nat) : F) ^ (o + i)) := by
  induction us generalizing o acc with
  | nil => simp
  | cons u us ih =>
    have := ih (o + 1) (zipAssign (fun a u => a + u * algebraMap F R (((d / 2 : Nat) : F) ^ o)) acc u)
    simp only [List.zipIdx_cons, List.foldl_cons]
    refine ⟨this.1.trans (zipAssign_length _ _ _), fun j hj => ?_⟩
    rw [this.2 j (by rwa [zipAssign_length]), zipAssign_getD _ (by simp) _ _ _ hj, List.length_cons, sum_range_succ']
    simp only [List.getD_cons_succ, List.getD_cons_zero, Nat.add_zero]
    rw [add_assoc, add_comm (_ * _)]
    congr 2
    apply sum_congr rfl
    intro i _
    rw [show o + 1 + i = o + (i + 1) by omega]

theorem uComb_eq (us : List (List R)) : uComb d F us = (List.range d).map fun j =>
    ∑ i ∈ range us.length, (us.getD i []).getD j 0 * algebraMap F R (((d / 2 : Nat) : F) ^ i) := by
  have := uComb_aux (F := F) (d := d) us 0 (List.replicate d 0)
  simp only [List.length_replicate, zero_add] at this
  unfold uComb
  apply List.ext_getElem
  · rw [this.1]; simp
  · intro j h1 h2
    have hj : j < d := by simpa using h2
    have := this.2 j hj
    rw [List.getD_eq_getElem?_getD, List.getElem?_eq_getElem h1, Option.getD_some] at this
    rw [this]
    simp [List.getD_eq_getElem?_getD, hj]

/-- `ct(psi * ∑_i d'^i u_i)`. -/
def recAt (pr : PlusRing F R d) (us : List (List R)) (j : Nat) : F :=
  ∑ i ∈ range us.length, ((d / 2 : Nat) : F) ^ i * pr.ct (pr.psi * (us.getD i []).getD j 0)

theorem vrec_eq (pr : PlusRing F R d) (us : List (List R)) :
    (uComb d F us).map (fun x => pr.ct (pr.psi * x)) = (List.range d).map (recAt pr us) := by
  rw [uComb_eq, List.map_map]
  apply List.map_congr_left
  intro j _
  unfold recAt
  simp only [Function.comp]
  change psiLin pr _ = _
  rw [map_sum]
  apply sum_congr rfl
  intro i _
  rw [mul_comm, ← Algebra.smul_def, map_smul, smul_eq_mul]
  rfl

/-! ### Exactly when the verifier accepts -/

section
variable [DecidableEq F] [DecidableEq R]

theorem psiCheckAB_iff (pr : PlusRing F R d) (ev : DcomEvals F R) :
    psiCheckAB pr ev = .ok () ↔ ∀ p ∈ ev.a.zip ev.b, pr.ct (pr.psi * p.2) = p.1 := by
  unfold psiCheckAB
  rw [foldRes_unit_iff]
  apply forall_congr'
  intro p
  apply imp_congr_right
  intro _
  split <;> simp [*]

theorem psiCheckU_iff (pr : PlusRing F R d) (dp : DParams) (ev : DcomEvals F R) (l : Nat) (p : List (List R) × Nat) :
    psiCheckU pr dp ev l p = .ok () ↔
      if p.2 = 0 then ev.v = (List.range d).map (recAt pr ((p.1.drop (dp.k * l)).take dp.k))
      else ∃ c, ev.c[p.2]? = some c ∧ pr.coeffs c = (List.range d).map (recAt pr ((p.1.drop (dp.k * l)).take dp.k)) := by
  unfold psiCheckU
  simp only [vrec_eq]
  split
  · split <;> simp [*]
  · cases h : ev.c[p.2]? with
    | none =>
      have : idx "eval.c[ni]" ev.c p.2 = .error (.panic "eval.c[ni]") := by unfold idx; rw [h]
      rw [this]
      simp [bind, Except.bind]
    | some c =>
      have : idx "eval.c[ni]" ev.c p.2 = .ok c := by unfold idx; rw [h]
      rw [this, bind_ok']
      split <;> simp [*]

theorem dcomVerify_iff (pr : PlusRing F R d) (T : Transcript F R σ) (s s' : σ) (dcom : Dcom F R) :
    dcomVerify pr T s dcom = .ok s' ↔ ∃ s1, setVerify pr T s dcom.out = .ok s1 ∧ s' = absorbDcom T s1 dcom.evals ∧
      ∀ p ∈ dcom.evals.zipIdx, psiCheckAB pr p.1 = .ok () ∧
        ∀ q ∈ dcom.out.e.zipIdx, psiCheckU pr dcom.dparams p.1 p.2 q = .ok () := by
  unfold dcomVerify
  have hu : ∀ s1, unwrapRes "out.verify.unwrap()" (setVerify pr T s dcom.out) = .ok s1
      ↔ setVerify pr T s dcom.out = .ok s1 := by
    intro s1
    unfold unwrapRes
    split <;> simp [*]
  simp only [bind_eq_ok, hu]
  have hin : ∀ p : DcomEvals F R × Nat, (do
      let _ ← psiCheckAB pr p.1
      foldRes (fun _ q => psiCheckU pr dcom.dparams p.1 p.2 q) () dcom.out.e.zipIdx) = .ok ()
      ↔ psiCheckAB pr p.1 = .ok () ∧ ∀ q ∈ dcom.out.e.zipIdx, psiCheckU pr dcom.dparams p.1 p.2 q = .ok () := by
    intro p
    simp only [bind_eq_ok, foldRes_unit_iff]
    constructor
    · rintro ⟨u, h1, h2⟩
      exact ⟨h1, h2⟩
    · rintro ⟨h1, h2⟩
      exact ⟨(), h1, h2⟩
  have hf : ∀ u, foldRes (fun _ (p : DcomEvals F R × Nat) => do
      let _ ← psiCheckAB pr p.1
      foldRes (fun _ q => psiCheckU pr dcom.dparams p.1 p.2 q) () dcom.out.e.zipIdx) () dcom.evals.zipIdx = .ok u ↔
      ∀ p ∈ dcom.evals.zipIdx, psiCheckAB pr p.1 = .ok () ∧
        ∀ q ∈ dcom.out.e.zipIdx, psiCheckU pr dcom.dparams p.1 p.2 q = .ok () := by
    intro u
    cases u
    rw [foldRes_unit_iff]
    simp only [hin]
  constructor
  · rintro ⟨s1, h1, u, h2, h3⟩
    cases h3
    exact ⟨s1, h1, rfl, (hf u).1 h2⟩
  · rintro ⟨s1, h1, rfl, h2⟩
    exact ⟨s1, h1, (), (hf ()).2 h2, rfl⟩

end

/-! ### The sets -/

theorem matSets_range (insts : List (RgInstance F R)) :
    matSets (rangeSets insts) = insts.flatMap fun inst => inst.Mf.map SpMat.fromDense := by
  have happ : ∀ l m : List (MonomialSet R), matSets (l ++ m) = matSets l ++ matSets m := fun l m => by
    unfold matSets; exact List.filterMap_append
  have h1 : matSets (insts.map fun inst => MonomialSet.vector inst.mTau) = [] := by
    unfold matSets; simp [List.filterMap_map]
  have h2 : ∀ l : List (Mat R), matSets (l.map fun m => MonomialSet.matrix (SpMat.fromDense m)) = l.map SpMat.fromDense := by
    intro l
    unfold matSets
    induction l with
    | nil => rfl
    | cons a l ih => simp
  unfold rangeSets
  rw [happ, h1, List.append_nil]
  induction insts with
  | nil => rfl
  | cons i l ih => rw [List.flatMap_cons, happ, h2, ih (by unfold matSets; simp [List.filterMap_map]), List.flatMap_cons]

theorem vecSets_range (insts : List (RgInstance F R)) : vecSets (rangeSets insts) = insts.map fun inst => inst.mTau := by
  have happ : ∀ l m : List (MonomialSet R), vecSets (l ++ m) = vecSets l ++ vecSets m := fun l m => by
    unfold vecSets; exact List.filterMap_append
  have h1 : vecSets (insts.flatMap fun inst => inst.Mf.map fun m => MonomialSet.matrix (SpMat.fromDense m)) = [] := by
    unfold vecSets
    rw [List.filterMap_eq_nil_iff]
    intro s hs
    simp only [List.mem_flatMap, List.mem_map] at hs
    obtain ⟨i, _, m, _, rfl⟩ := hs
    rfl
  unfold rangeSets
  rw [happ, h1, List.nil_append]
  unfold vecSets
  induction insts with
  | nil => rfl
  | cons i l ih =>
    simp

theorem fromDense_wf {D : Mat R} (h : D.WF) : (SpMat.fromDense D).WF := by
  refine ⟨by simp [SpMat.fromDense, h.1], ?_⟩
  intro row hr t ht
  simp only [SpMat.fromDense, List.mem_map] at hr
  obtain ⟨r0, hr0, rfl⟩ := hr
  have := (List.mem_zipIdx ht).2.1
  rw [h.2 r0 hr0] at this
  simpa [SpMat.fromDense] using this

theorem colL_fromDense (D : Mat R) (j : Nat) :
    colL (SpMat.fromDense D) j = (List.range D.nrows).map fun i => matEntry D i j := by
  unfold colL
  simp only [lastEntry_fromDense]
  rfl

theorem col_getD {D : Mat R} (h : D.WF) (i j : Nat) :
    ((List.range D.nrows).map fun i => matEntry D i j).getD i 0 = matEntry D i j := by
  by_cases hi : i < D.nrows
  · exact getD_map_range _ _ hi
  · rw [getD_out _ (by simp; omega)]
    unfold matEntry
    have : D.vals.getD i [] = [] := by
      rw [List.getD_eq_getElem?_getD, List.getElem?_eq_none (by rw [h.1]; omega)]; rfl
    rw [this]
    simp

theorem setE_range (insts : List (RgInstance F R)) (M : List (SpMat R)) (rp : List R)
    (hw : ∀ inst ∈ insts, ∀ D ∈ inst.Mf, D.WF) :
    setE d (matSets (rangeSets insts)) M rp = columnsAt M rp d insts := by
  unfold setE columnsAt
  rw [matSets_range]
  congr 1
  · rw [List.map_flatMap]
    apply List.flatMap_congr
    intro inst hi
    rw [List.map_map]
    apply List.map_congr_left
    intro D hD
    apply List.map_congr_left
    intro j _
    apply mle_congr
    intro i _
    rw [colL_fromDense, col_getD (hw inst hi D hD)]
  · apply List.map_congr_left
    intro m _
    rw [List.map_flatMap]
    apply List.flatMap_congr
    intro inst hi
    rw [List.map_map]
    apply List.map_congr_left
    intro D hD
    apply List.map_congr_left
    intro j _
    simp only [Function.comp, colL_fromDense]

theorem ct_algebraMap (pr : PlusRing F R d) (a : F) : pr.ct (algebraMap F R a) = a := by
  have h := pr.coeff_X ⟨0, pr.dpos⟩
  have h1 : algebraMap F R a = a • pr.X ^ 0 := by rw [Algebra.smul_def]; simp
  unfold PlusRing.ct
  simp only at h
  rw [h1, map_smul, h]
  simp

/-! ### The evaluations -/

section
variable [DecidableEq F] [DecidableEq R]

/-- The evaluations for an instance whose vector `v` is taken from `f'`. -/
def evalsOf (pr : PlusRing F R d) (M : List (SpMat R)) (r : List F) (inst : RgInstance F R) (f' : List R) : DcomEvals F R :=
  { evalsAt pr M r inst with v := (evalsAt pr M r { inst with f := f' }).v }

theorem evalsOf_self (pr : PlusRing F R d) (M : List (SpMat R)) (r : List F) (inst : RgInstance F R) :
    evalsOf pr M r inst inst.f = evalsAt pr M r inst := rfl

theorem psiAB_ok (pr : PlusRing F R d) {nvars n : Nat} {M : List (SpMat R)} {inst : RgInstance F R}
    (h1 : inst.tau.length = n) (h2 : inst.mTau.length = n) (h3 : ∀ i < n, pr.ct (pr.psi * inst.mTau.getD i 0) = inst.tau.getD i 0)
    (hM : MatsOK F nvars n M) (r : List F) (ev : DcomEvals F R)
    (ha : ev.a = (evalsAt pr M r inst).a) (hb : ev.b = (evalsAt pr M r inst).b) : psiCheckAB pr ev = .ok () := by
  rw [psiCheckAB_iff, ha, hb]
  simp only [evalsAt, List.zip_cons_cons, List.mem_cons, forall_eq_or_imp]
  constructor
  · change psiLin pr _ = _
    rw [linear_mle]
    apply mle_congr
    intro i _
    by_cases hi : i < n
    · exact h3 i hi
    · rw [getD_out _ (by rw [h2]; omega), getD_out _ (by rw [h1]; omega)]
      exact map_zero _
  · intro p hp
    rw [List.zip_map_left, List.zip_map_right, List.map_map, List.mem_map] at hp
    obtain ⟨⟨m, m'⟩, hm, rfl⟩ := hp
    obtain rfl : m = m' := by
      have := List.mem_iff_getElem.1 hm
      obtain ⟨i, hi, he⟩ := this
      rw [List.getElem_zip] at he
      exact (congrArg Prod.fst he).symm.trans (congrArg Prod.snd he)
    have hmM : m ∈ M := (List.of_mem_zip hm).1
    change psiLin pr (mle (mulVec m inst.mTau) (r.map (algebraMap F R)))
      = ctLin pr (mle (mulVec m (inst.tau.map (algebraMap F R))) (r.map (algebraMap F R)))
    rw [linear_mle, linear_mle]
    apply mle_congr
    intro i _
    apply linear_mulVec (hM m hmM).2.2.2
    intro j hj
    rw [(hM m hmM).2.1] at hj
    have e : (inst.tau.map (algebraMap F R)).getD j 0 = algebraMap F R (inst.tau.getD j 0) := by
      rw [← map_zero (algebraMap F R), List.getD_map]
    rw [e]
    change pr.ct (pr.psi * _) = pr.ct _
    rw [h3 j hj, ct_algebraMap]

theorem block_take {α β : Type} (g : α → List β) (k : Nat) (l : List α) (hk : ∀ a ∈ l, (g a).length = k) (i : Nat)
    (hi : i < l.length) : ((l.flatMap g).drop (k * i)).take k = g l[i] := by
  induction l generalizing i with
  | nil => simp at hi
  | cons a l ih =>
    have ha := hk a (List.mem_cons_self ..)
    rw [List.flatMap_cons]
    cases i with
    | zero => simp [← ha]
    | succ i =>
      have e : k * (i + 1) = (g a).length + k * i := by rw [ha]; ring
      rw [e, List.drop_length_add_append]
      exact ih (fun a h => hk a (List.mem_cons_of_mem _ h)) i (by simpa using hi)

theorem digitMat_mem {inst : RgInstance F R} {κ : Nat} (h : κ < inst.Mf.length) : digitMat inst κ ∈ inst.Mf := by
  unfold digitMat
  rw [List.getD_eq_getElem?_getD, List.getElem?_eq_getElem h, Option.getD_some]
  exact List.getElem_mem h

theorem recAt_block (pr : PlusRing F R d) (inst : RgInstance F R) (h : Mat R → Nat → R) (j : Nat) (hj : j < d) :
    recAt pr (inst.Mf.map fun D => (List.range d).map fun j => h D j) j
      = ∑ κ ∈ range inst.Mf.length, ((d / 2 : Nat) : F) ^ κ * pr.ct (pr.psi * h (digitMat inst κ) j) := by
  unfold recAt
  rw [List.length_map]
  apply sum_congr rfl
  intro κ hκ
  have hk := mem_range.1 hκ
  have : (inst.Mf.map fun D => (List.range d).map fun j => h D j).getD κ [] = (List.range d).map fun j => h (digitMat inst κ) j := by
    unfold digitMat
    simp [List.getD_eq_getElem?_getD, hk]
  rw [this, getD_map_range _ _ hj]

/-- The columns recombine to the coefficients. -/
theorem rec_zero (pr : PlusRing F R d) {n k : Nat} {inst : RgInstance F R} {f' : List R}
    (h : RgValid pr n k inst f') (r : List F) (j : Fin d) :
    ∑ κ ∈ range k, ((d / 2 : Nat) : F) ^ κ * pr.ct (pr.psi * mle (fun i => matEntry (digitMat inst κ) i j) (r.map (algebraMap F R)))
      = mle (fun i => pr.coeff (f'.getD i 0) j) r := by
  have e : ∀ κ ∈ range k, ((d / 2 : Nat) : F) ^ κ * pr.ct (pr.psi * mle (fun i => matEntry (digitMat inst κ) i j) (r.map (algebraMap F R)))
      = mle (fun i => ((d / 2 : Nat) : F) ^ κ * pr.ct (pr.psi * matEntry (digitMat inst κ) i j)) r := by
    intro κ _
    rw [mle_smul]
    congr 1
    exact linear_mle (psiLin pr) _ _
  rw [sum_congr rfl e, ← mle_sum]
  apply mle_congr
  intro i _
  by_cases hi : i < n
  · exact h.digits i hi j
  · rw [getD_out _ (by rw [h.flen']; omega), map_zero]
    apply sum_eq_zero
    intro κ hκ
    have hD := h.shape _ (digitMat_mem (by rw [h.count]; exact mem_range.1 hκ))
    rw [← col_getD hD.1, getD_out _ (by simp; omega), mul_zero]
    have : pr.ct (0 : R) = 0 := map_zero (ctLin pr)
    rw [this, mul_zero]

theorem rec_succ (pr : PlusRing F R d) {n k : Nat} {inst : RgInstance F R} {f' : List R}
    (h : RgValid pr n k inst f') {m : SpMat R} (hsc : ScalarMat F m) (hn : m.ncols = n) (r : List F) (j : Fin d) :
    ∑ κ ∈ range k, ((d / 2 : Nat) : F) ^ κ * pr.ct (pr.psi * mle (mulVec m ((List.range (digitMat inst κ).nrows).map
        fun i => matEntry (digitMat inst κ) i j)) (r.map (algebraMap F R)))
      = pr.coeff (mle (mulVec m f') (r.map (algebraMap F R))) j := by
  have e : ∀ κ ∈ range k, ((d / 2 : Nat) : F) ^ κ * pr.ct (pr.psi * mle (mulVec m ((List.range (digitMat inst κ).nrows).map
        fun i => matEntry (digitMat inst κ) i j)) (r.map (algebraMap F R)))
      = mle (fun i => ((d / 2 : Nat) : F) ^ κ * psiLin pr (mulVec m ((List.range (digitMat inst κ).nrows).map
        fun i => matEntry (digitMat inst κ) i j) i)) r := by
    intro κ _
    rw [mle_smul]
    congr 1
    exact linear_mle (psiLin pr) _ _
  rw [sum_congr rfl e, ← mle_sum]
  change _ = coeffLin pr j _
  rw [linear_mle]
  apply mle_congr
  intro i _
  apply linear_mulVec_sum hsc
  intro x hx
  rw [hn] at hx
  refine Eq.trans ?_ (h.digits x hx j)
  apply sum_congr rfl
  intro κ hκ
  have hD := h.shape _ (digitMat_mem (by rw [h.count]; exact mem_range.1 hκ))
  rw [col_getD hD.1]
  rfl

theorem psiU_ok (pr : PlusRing F R d) {nvars n : Nat} {M : List (SpMat R)} {insts : List (RgInstance F R)} {dp : DParams}
    {f' : List R} (hM : MatsOK F nvars n M) (hc : ∀ inst ∈ insts, inst.Mf.length = dp.k) (l : Nat) (hl : l < insts.length)
    (h : RgValid pr n dp.k insts[l] f')
    (hf : ∀ m ∈ M, ∀ i, mulVec m insts[l].f i = mulVec m f' i) (r : List F) (q : List (List R) × Nat)
    (hq : q ∈ (columnsAt M (r.map (algebraMap F R)) d insts).zipIdx) :
    psiCheckU pr dp (evalsOf pr M r insts[l] f') l q = .ok () := by
  rw [psiCheckU_iff]
  obtain ⟨hq1, hq2⟩ := List.mem_zipIdx' hq
  by_cases h0 : q.2 = 0
  · rw [if_pos h0]
    have e1 : q.1 = insts.flatMap fun inst => inst.Mf.map fun D => (List.range d).map fun j =>
        mle (fun i => matEntry D i j) (r.map (algebraMap F R)) := by
      rw [hq2]; simp [columnsAt, h0]
    rw [e1, block_take _ dp.k _ (by intro a ha; rw [List.length_map]; exact hc a ha) _ hl]
    simp only [evalsOf, evalsAt]
    apply List.map_congr_left
    intro j hj
    have hj' := List.mem_range.1 hj
    rw [recAt_block pr insts[l] (fun D j => mle (fun i => matEntry D i j) (r.map (algebraMap F R))) j hj', h.count]
    rw [rec_zero pr h r ⟨j, hj'⟩]
    apply mle_congr
    intro i _
    exact coeffs_getD pr _ _ hj'
  · rw [if_neg h0]
    obtain ⟨i, hi⟩ : ∃ i, q.2 = i + 1 := ⟨q.2 - 1, by omega⟩
    have hil : i < M.length := by
      simp only [columnsAt, List.length_cons, List.length_map] at hq1
      omega
    have hmem : M[i] ∈ M := List.getElem_mem hil
    have e1 : q.1 = insts.flatMap fun inst => inst.Mf.map fun D => (List.range d).map fun j =>
        mle (mulVec M[i] ((List.range D.nrows).map fun i => matEntry D i j)) (r.map (algebraMap F R)) := by
      rw [hq2]; simp [columnsAt, hi]
    refine ⟨mle (mulVec M[i] insts[l].f) (r.map (algebraMap F R)), by simp [evalsOf, evalsAt, hi, hil], ?_⟩
    rw [e1, block_take _ dp.k _ (by intro a ha; rw [List.length_map]; exact hc a ha) _ hl]
    apply coeffs_ext
    intro j
    rw [recAt_block pr insts[l] (fun D j => mle (mulVec M[i] ((List.range D.nrows).map fun i => matEntry D i j))
      (r.map (algebraMap F R))) j j.2, h.count, rec_succ pr h (hM _ hmem).2.2.2 (hM _ hmem).2.1 r j]
    have e2 : mulVec M[i] insts[l].f = mulVec M[i] f' := funext fun x => hf _ hmem x
    rw [e2]

/-- The verifier accepts the evaluations of the instances. -/
theorem dcomVerify_ok (pr : PlusRing F R d) (T : Transcript F R σ) (s s' : σ) {nvars n : Nat} {M : List (SpMat R)}
    {insts : List (RgInstance F R)} (fs : RgInstance F R → List R) (dp : DParams) (fcoms : List (FComs R)) (out : SetOut F R)
    (hM : MatsOK F nvars n M) (h : ∀ inst ∈ insts, RgValid pr n dp.k inst (fs inst))
    (hf : ∀ inst ∈ insts, ∀ m ∈ M, ∀ i, mulVec m inst.f i = mulVec m (fs inst) i)
    (he : out.e = columnsAt M (out.r.map (algebraMap F R)) d insts) (hv : setVerify pr T s out = .ok s') :
    dcomVerify pr T s ⟨insts.map fun inst => evalsOf pr M out.r inst (fs inst), fcoms, out, dp⟩
      = .ok (absorbDcom T s' (insts.map fun inst => evalsOf pr M out.r inst (fs inst))) := by
  rw [dcomVerify_iff]
  refine ⟨s', hv, rfl, ?_⟩
  intro p hp
  obtain ⟨hp1, hp2⟩ := List.mem_zipIdx' hp
  have hl : p.2 < insts.length := by simpa using hp1
  have hmem : insts[p.2] ∈ insts := List.getElem_mem hl
  have e : p.1 = evalsOf pr M out.r insts[p.2] (fs insts[p.2]) := by rw [hp2]; simp
  constructor
  · exact psiAB_ok pr (h _ hmem).taulen (h _ hmem).mTaulen (h _ hmem).tauVal hM out.r p.1 (by rw [e]; rfl) (by rw [e]; rfl)
  · intro q hq
    rw [e]
    simp only [he] at hq
    exact psiU_ok pr hM (fun inst hi => (h inst hi).count) p.2 hl (h _ hmem) (hf _ hmem) out.r q hq

/-! ### The prover -/

theorem dcomEvals_ok (pr : PlusRing F R d) {nvars n k : Nat} {M : List (SpMat R)} {inst : RgInstance F R} {f' : List R}
    (hn : 1 ≤ n) (hn2 : n ≤ 2 ^ nvars)
    (h : RgValid pr n k inst f') (hM : MatsOK F nvars n M) (out : SetOut F R) (hr : out.r.length = nvars) (l : Nat)
    (hb : out.b[l]? = some (mle (fun i => inst.mTau.getD i 0) (out.r.map (algebraMap F R)))) :
    dcomEvals pr nvars M out (inst, l) = .ok (evalsAt pr M out.r inst) := by
  unfold dcomEvals
  have hne : inst.f.isEmpty = false := by
    rw [List.isEmpty_eq_false_iff]
    intro h0
    have := h.flen
    rw [h0] at this
    simp at this
    omega
  have hrp : (out.r.map (algebraMap F R)).length = nvars := by simp [hr]
  have h1 : mapRes (fun evals => evalVec nvars evals out.r) (coeffTable pr inst.f) = .ok (evalsAt pr M out.r inst).v := by
    unfold coeffTable
    rw [hne]
    simp only [Bool.false_eq_true, if_false, mapRes_map, evalsAt]
    apply mapRes_ok
    intro j _
    rw [evalVec_ok nvars _ _ (by rw [List.length_map, h.flen]; exact hn2) hr]
    congr 1
    apply mle_congr
    intro i _
    have : (0 : F) = (fun r => (pr.coeffs r).getD j 0) 0 := by
      by_cases hj : j < d
      · simp only [coeffs_getD pr _ _ hj, map_zero]; rfl
      · simp [List.getD_eq_getElem?_getD, PlusRing.coeffs, hj]
    have e := List.getD_map (l := inst.f) (n := i) (d := (0 : R)) (f := fun r => (pr.coeffs r).getD j 0)
    simp only at this e
    rw [← this] at e
    exact e
  have h2 : ∀ m ∈ M, dcomMatEvals pr nvars (out.r.map (algebraMap F R)) inst m
      = .ok (pr.ct (mle (mulVec m (inst.tau.map (algebraMap F R))) (out.r.map (algebraMap F R))),
        mle (mulVec m inst.mTau) (out.r.map (algebraMap F R)), mle (mulVec m inst.f) (out.r.map (algebraMap F R))) := by
    intro m hm
    obtain ⟨w, hnc, hnr, _⟩ := hM m hm
    have k1 : ∀ z : List R, z.length = n → m.tryMulVec z = .ok ((List.range m.nrows).map fun i => mulVec m z i) :=
      fun z hz => tryMulVec_wf w (by rw [hz, hnc])
    have k2 : ∀ z : List R, evalVec nvars ((List.range m.nrows).map fun i => mulVec m z i) (out.r.map (algebraMap F R))
        = .ok (mle (mulVec m z) (out.r.map (algebraMap F R))) := by
      intro z
      rw [evalVec_ok nvars _ _ (by simp; exact hnr) hrp]
      congr 1
      apply mle_congr
      intro i _
      exact mulVec_list_getD w z i
    unfold dcomMatEvals
    rw [k1 _ (by rw [List.length_map, h.taulen]), bind_ok', k2, bind_ok', k1 _ h.mTaulen, bind_ok', k2, bind_ok',
      k1 _ h.flen, bind_ok', k2, bind_ok']
  have h3 : idx "out_rel.b[l]" out.b l = .ok (mle (fun i => inst.mTau.getD i 0) (out.r.map (algebraMap F R))) := by
    unfold idx; rw [hb]
  simp only [h1, bind_ok']
  rw [evalVec_ok nvars inst.tau out.r (by rw [h.taulen]; exact hn2) hr, bind_ok', h3, bind_ok',
    evalVec_ok nvars inst.f _ (by rw [h.flen]; exact hn2) hrp, bind_ok', mapRes_ok h2, bind_ok']
  simp only [evalsAt, List.map_map]
  rfl

theorem rangeSets_input (pr : PlusRing F R d) (n : Nat) (rg : Rg F R) (M : List (SpMat R)) (hn : 2 ≤ n)
    (hnv : rg.nvars = Nat.clog 2 n) (h : ∀ inst ∈ rg.instances, RgValid pr n rg.dparams.k inst inst.f)
    (hM : MatsOK F rg.nvars n M) : Props.SetInput rg.nvars n d (rangeSets rg.instances) M := by
  have hn2 : n ≤ 2 ^ rg.nvars := by rw [hnv]; exact Nat.le_pow_clog (by norm_num) n
  refine ⟨hnv, ?_, ?_, ?_, fun Mi hMi => ⟨(hM Mi hMi).1, (hM Mi hMi).2.1, (hM Mi hMi).2.2.1⟩⟩
  · rw [hnv]
    exact Nat.clog_pos (by norm_num) hn
  · intro A hA
    rw [← Props.mem_matSets, matSets_range, List.mem_flatMap] at hA
    obtain ⟨inst, hi, hA⟩ := hA
    obtain ⟨D, hD, rfl⟩ := List.mem_map.1 hA
    obtain ⟨w, h1, h2⟩ := (h inst hi).shape D hD
    exact ⟨fromDense_wf w, h1, h2⟩
  · intro v hv
    rw [← Props.mem_vecSets, vecSets_range] at hv
    obtain ⟨inst, hi, rfl⟩ := List.mem_map.1 hv
    rw [(h inst hi).mTaulen]
    exact hn2

theorem rangeSets_mono (pr : PlusRing F R d) (n : Nat) (rg : Rg F R)
    (h : ∀ inst ∈ rg.instances, RgValid pr n rg.dparams.k inst inst.f) :
    ∀ S ∈ rangeSets rg.instances, Props.SetMonomial pr S := by
  intro S hS
  unfold rangeSets at hS
  rcases List.mem_append.1 hS with hS | hS
  · obtain ⟨inst, hi, hA⟩ := List.mem_flatMap.1 hS
    obtain ⟨D, hD, rfl⟩ := List.mem_map.1 hA
    intro i j
    rw [lastEntry_fromDense]
    exact (h inst hi).mono D hD i j
  · obtain ⟨inst, hi, rfl⟩ := List.mem_map.1 hS
    exact (h inst hi).tauMono

theorem rangeSets_num (pr : PlusRing F R d) (n : Nat) (rg : Rg F R)
    (h : ∀ inst ∈ rg.instances, RgValid pr n rg.dparams.k inst inst.f) :
    Props.numMat (rangeSets rg.instances) = rg.dparams.k * rg.instances.length := by
  rw [← Props.matSets_length, matSets_range, List.length_flatMap]
  rw [List.map_congr_left (g := fun _ => rg.dparams.k) (fun inst hi => by rw [List.length_map, (h inst hi).count])]
  simp [mul_comm]

/-- The range check after its set check. -/
theorem rangeCheck_of_set (pr : PlusRing F R d) (T : Transcript F R σ) (s : σ) (n : Nat) (rg : Rg F R) (M : List (SpMat R))
    (hn : 2 ≤ n) (hnv : rg.nvars = Nat.clog 2 n)
    (h : ∀ inst ∈ rg.instances, RgValid pr n rg.dparams.k inst inst.f) (hM : MatsOK F rg.nvars n M)
    (out : SetOut F R) (s' : σ) (h1 : setCheck pr T s rg.nvars (rangeSets rg.instances) M = .ok (out, s'))
    (h4 : out.r.length = rg.nvars)
    (h6' : out.b = rg.instances.map (fun inst => mle (fun i => inst.mTau.getD i 0) (out.r.map (algebraMap F R)))) :
    rangeCheck pr T s rg M = .ok (⟨rg.instances.map (evalsAt pr M out.r), rg.instances.map (·.fcoms), out, rg.dparams⟩,
      absorbDcom T s' (rg.instances.map (evalsAt pr M out.r))) := by
  have hn2 : n ≤ 2 ^ rg.nvars := by rw [hnv]; exact Nat.le_pow_clog (by norm_num) n
  unfold rangeCheck
  rw [h1, bind_ok']
  have : mapRes (dcomEvals pr rg.nvars M out) rg.instances.zipIdx = .ok (rg.instances.map (evalsAt pr M out.r)) := by
    have := mapRes_ok (f := dcomEvals pr rg.nvars M out) (g := fun p : RgInstance F R × Nat => evalsAt pr M out.r p.1)
      (l := rg.instances.zipIdx) (by
        rintro ⟨inst, l⟩ hp
        obtain ⟨hp1, hp2⟩ := List.mem_zipIdx' hp
        have hmem : inst ∈ rg.instances := by
          rw [show inst = rg.instances[l] from hp2]
          exact List.getElem_mem hp1
        refine dcomEvals_ok pr (by omega) hn2 (h inst hmem) hM out h4 l ?_
        rw [h6']
        change l < _ at hp1
        rw [List.getElem?_map, List.getElem?_eq_getElem hp1, ← show inst = rg.instances[l] from hp2]
        rfl)
    rw [this]
    congr 1
    have e := List.map_map (g := evalsAt pr M out.r) (f := Prod.fst) (l := rg.instances.zipIdx)
    rw [List.zipIdx_map_fst] at e
    exact e.symm
  simp only [this, bind_ok']


theorem rangeCheck_run (pr : PlusRing F R d) (T : Transcript F R σ) (s : σ) (n : Nat) (rg : Rg F R) (M : List (SpMat R))
    (hn : 2 ≤ n) (hnv : rg.nvars = Nat.clog 2 n) (hc : CharGt F 3)
    (hcount : 2 ≤ rg.dparams.k * rg.instances.length)
    (h : ∀ inst ∈ rg.instances, RgValid pr n rg.dparams.k inst inst.f) (hM : MatsOK F rg.nvars n M) :
    ∃ out s', setCheck pr T s rg.nvars (rangeSets rg.instances) M = .ok (out, s') ∧ setVerify pr T s out = .ok s' ∧
      out.nvars = rg.nvars ∧ out.r.length = rg.nvars ∧
      out.e = columnsAt M (out.r.map (algebraMap F R)) d rg.instances ∧
      out.b = rg.instances.map (fun inst => mle (fun i => inst.mTau.getD i 0) (out.r.map (algebraMap F R))) ∧
      rangeCheck pr T s rg M = .ok (⟨rg.instances.map (evalsAt pr M out.r), rg.instances.map (·.fcoms), out, rg.dparams⟩,
        absorbDcom T s' (rg.instances.map (evalsAt pr M out.r))) := by
  have hin := rangeSets_input pr n rg M hn hnv h hM
  have hmono := rangeSets_mono pr n rg h
  have hnum := rangeSets_num pr n rg h
  obtain ⟨out, s', h1, h2, h3, h4, h5, h6⟩ := Props.C51_complete_partial pr T s rg.nvars n d (rangeSets rg.instances) M hin
    hmono hc (Or.inl (by rw [hnum]; exact hcount))
  rw [setE_range rg.instances M _ (fun inst hi D hD => ((h inst hi).shape D hD).1)] at h5
  have h6' : out.b = rg.instances.map (fun inst => mle (fun i => inst.mTau.getD i 0) (out.r.map (algebraMap F R))) := by
    rw [h6, vecSets_range]
    unfold setB
    rw [List.map_map]
    rfl
  exact ⟨out, s', h1, h2, h3, h4, h5, h6', rangeCheck_of_set pr T s n rg M hn hnv h hM out s' h1 h4 h6'⟩

end

end Verif.Plus
