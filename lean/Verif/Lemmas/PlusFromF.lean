import Verif.Lemmas.PlusRange
import Verif.Lemmas.Witness

/-!
# Lemmas: `RgInstance::from_f`
-/

set_option linter.unusedSectionVars false
set_option linter.unusedSimpArgs false

namespace Verif.Plus

open Finset Spec

variable {F R σ : Type} {d : Nat}
variable [Field F] [CommRing R] [Algebra F R]

/-! ### The external operations in their domain -/

/-- The digits of a field element. -/
def dgF (pr : PlusRing F R d) (b k : Nat) (a : F) : List F :=
  match pr.decF b k a with
  | .ok ds => ds
  | .error _ => []

/-- The digits of a ring element. -/
def dgR (pr : PlusRing F R d) (b k : Nat) (a : R) : List R :=
  match pr.dec b k a with
  | .ok ds => ds
  | .error _ => []

/-- The monomial of a field element. -/
def expV (pr : PlusRing F R d) (a : F) : R := (pr.exp a).getD 0

theorem dgF_ok (pr : PlusRing F R d) {b k : Nat} {a : F} (hb : 2 ≤ b) (he : Even b) (hk : 1 ≤ k) (h : Short (b ^ k) a) :
    pr.decF b k a = .ok (dgF pr b k a) ∧ (dgF pr b k a).length = k ∧
      ∑ i ∈ range k, (b : F) ^ i * (dgF pr b k a).getD i 0 = a ∧ ∀ x ∈ dgF pr b k a, Short b x := by
  obtain ⟨ds, h1, h2⟩ := pr.decF_ok b k a hb he hk h
  have e : dgF pr b k a = ds := by unfold dgF; rw [h1]
  rw [e]
  exact ⟨h1, h2⟩

theorem dgR_ok (pr : PlusRing F R d) {b k : Nat} {a : R} (hb : 2 ≤ b) (he : Even b) (hk : 1 ≤ k)
    (h : ∀ i, Short (b ^ k) (pr.coeff a i)) :
    pr.dec b k a = .ok (dgR pr b k a) ∧ (dgR pr b k a).length = k ∧
      ∑ i ∈ range k, (b : R) ^ i * (dgR pr b k a).getD i 0 = a ∧ ∀ x ∈ dgR pr b k a, ∀ i, Short b (pr.coeff x i) := by
  obtain ⟨ds, h1, h2⟩ := pr.dec_ok b k a hb he hk h
  have e : dgR pr b k a = ds := by unfold dgR; rw [h1]
  rw [e]
  exact ⟨h1, h2⟩

theorem expV_ok (pr : PlusRing F R d) {b : Nat} {a : F} (hb : b < d) (h : Short b a) :
    expUnwrap pr a = .ok (expV pr a) ∧ IsMonomial pr (expV pr a) ∧ pr.ct (pr.psi * expV pr a) = a := by
  obtain ⟨n, hn, rfl⟩ := h
  obtain ⟨i, h1, h2⟩ := pr.exp_ok n (by omega)
  have e : expV pr (n : F) = pr.X ^ (i : Nat) := by unfold expV; rw [h1]; rfl
  refine ⟨?_, ?_, ?_⟩
  · unfold expUnwrap; rw [h1, e]
  · rw [e]; exact Or.inr ⟨i, rfl⟩
  · rw [e]; exact h2

theorem short_zero (b : Nat) : Short b (0 : F) := ⟨0, by simp, by simp⟩

theorem sum_coeff (pr : PlusRing F R d) (x : R) :
    ∑ e ∈ range d, pr.X ^ e * algebraMap F R ((pr.coeffs x).getD e 0) = x := by
  apply pr.coeff.injective
  rw [map_sum, Finset.sum_range]
  funext j
  rw [Finset.sum_apply]
  have : ∀ e : Fin d, pr.coeff (pr.X ^ (e : Nat) * algebraMap F R ((pr.coeffs x).getD e 0)) j
      = if e = j then pr.coeff x e else 0 := by
    intro e
    rw [coeffs_getD pr x e e.2, mul_comm, ← Algebra.smul_def, map_smul, pr.coeff_X, Pi.smul_apply, Pi.single_apply, smul_eq_mul]
    by_cases h : e = j
    · subst h; simp
    · rw [if_neg h, if_neg (fun h' => h h'.symm), mul_zero]
  simp only [this]
  simp

/-! ### The digits of `f` -/

theorem getD_map_lt {α β : Type} (f : α → β) (l : List α) (a : α) (b : β) {i : Nat} (h : i < l.length) :
    (l.map f).getD i b = f (l.getD i a) := by
  simp [List.getD_eq_getElem?_getD, h]

theorem mapRes_comp_ok {α β γ : Type} {f : β → Res γ} (g : α → β) (h : α → γ) (l : List α)
    (hf : ∀ k ∈ l, f (g k) = .ok (h k)) : mapRes f (l.map g) = .ok (l.map h) := by
  rw [mapRes_map]
  exact mapRes_ok hf

theorem getD_range_any {β : Type} (f : Nat → β) (b : β) {n i : Nat} (h : i < n) : ((List.range n).map f).getD i b = f i := by
  simp [List.getD_eq_getElem?_getD, h]

theorem digitTable_ok (pr : PlusRing F R d) {b k : Nat} {f : List R} (hb : 2 ≤ b) (he : Even b) (hk : 1 ≤ k)
    (h : ∀ x ∈ f, ∀ i, Short (b ^ k) (pr.coeff x i)) :
    digitTable pr b k f = .ok (f.map fun r => (pr.coeffs r).map (dgF pr b k)) := by
  unfold digitTable
  apply mapRes_ok
  intro r hr
  apply mapRes_ok
  intro c hc
  obtain ⟨i, rfl⟩ := List.mem_ofFn.1 hc
  obtain ⟨h1, h2, _⟩ := dgF_ok pr hb he hk (h r hr i)
  rw [h1, bind_ok', if_pos (by omega)]

/-- The matrix of monomials of digit `κ`. -/
def monoM (pr : PlusRing F R d) (b k : Nat) (f : List R) (κ : Nat) : Mat R :=
  ⟨f.length, d, f.map fun r => (pr.coeffs r).map fun c => expV pr ((dgF pr b k c).getD κ 0)⟩

theorem monoM_wf (pr : PlusRing F R d) (b k : Nat) (f : List R) (κ : Nat) : (monoM pr b k f κ).WF := by
  refine ⟨by simp [monoM], ?_⟩
  intro r hr
  simp only [monoM, List.mem_map] at hr
  obtain ⟨x, _, rfl⟩ := hr
  simp [monoM, coeffs_length]

theorem digit_short (pr : PlusRing F R d) {b k : Nat} {a : F} (hb : 2 ≤ b) (he : Even b) (hk : 1 ≤ k) (h : Short (b ^ k) a)
    (κ : Nat) : Short b ((dgF pr b k a).getD κ 0) := by
  obtain ⟨_, _, _, h4⟩ := dgF_ok pr hb he hk h
  by_cases hκ : κ < (dgF pr b k a).length
  · apply h4
    rw [List.getD_eq_getElem?_getD, List.getElem?_eq_getElem hκ, Option.getD_some]
    exact List.getElem_mem hκ
  · rw [getD_out _ (by omega)]
    exact short_zero b

theorem monoMat_ok (pr : PlusRing F R d) {b k : Nat} {f : List R} (hb : 2 ≤ b) (hbd : b < d) (he : Even b) (hk : 1 ≤ k)
    (hf : f ≠ []) (h : ∀ x ∈ f, ∀ i, Short (b ^ k) (pr.coeff x i)) (κ : Nat) :
    monoMat pr (f.map fun r => (pr.coeffs r).map (dgF pr b k)) κ = .ok (monoM pr b k f κ) := by
  unfold monoMat
  rw [mapRes_comp_ok (fun r => (pr.coeffs r).map (dgF pr b k)) (fun r => (pr.coeffs r).map fun c => expV pr ((dgF pr b k c).getD κ 0)), bind_ok']
  · congr 1
    cases f with
    | nil => exact absurd rfl hf
    | cons x f => simp [Mat.ofRows, monoM, coeffs_length]
  · intro r hr
    apply mapRes_comp_ok
    intro c hc
    obtain ⟨i, rfl⟩ := List.mem_ofFn.1 hc
    exact (expV_ok pr hbd (digit_short pr hb he hk (h r hr i) κ)).1

theorem monoM_entry (pr : PlusRing F R d) {b k : Nat} {f : List R} (κ : Nat) {i j : Nat} (hi : i < f.length) (hj : j < d) :
    matEntry (monoM pr b k f κ) i j = expV pr ((dgF pr b k (pr.coeff (f.getD i 0) ⟨j, hj⟩)).getD κ 0) := by
  unfold matEntry monoM
  simp only
  rw [getD_map_lt _ f 0 [] hi, getD_map_lt _ (pr.coeffs _) 0 0 (by rw [coeffs_length]; exact hj), coeffs_getD pr _ _ hj]

/-! ### Products -/

theorem commit_eq {A : Mat R} (hA : A.WF) {v : List R} (hv : v.length = A.ncols) : A.tryMulVec v = .ok (commit A v) := by
  rw [mat_tryMulVec_ok hv]
  congr 1
  unfold commit
  apply List.ext_getElem
  · simp [hA.1]
  · intro i h1 h2
    simp only [List.getElem_map, List.getElem_range]
    have hi : i < A.vals.length := by simpa using h1
    rw [dot_eq_sum _ _ A.ncols (Or.inr hv.le)]
    apply sum_congr rfl
    intro x _
    unfold matEntry
    rw [List.getD_eq_getElem?_getD (l := A.vals), List.getElem?_eq_getElem hi, Option.getD_some]

/-- The product of two dense matrices. -/
def mulM (A B : Mat R) : Mat R :=
  ⟨A.nrows, B.ncols, A.vals.map fun row => (List.range B.ncols).map fun j => dot row (B.vals.map fun br => br.getD j 0)⟩

theorem mulM_wf {A : Mat R} (hA : A.WF) (B : Mat R) : (mulM A B).WF := by
  refine ⟨by simp [mulM, hA.1], ?_⟩
  intro r hr
  simp only [mulM, List.mem_map] at hr
  obtain ⟨x, _, rfl⟩ := hr
  simp [mulM]

theorem tryMulMat_ok {A B : Mat R} (h : A.ncols = B.nrows) : A.tryMulMat B = .ok (mulM A B) := by
  unfold Mat.tryMulMat mulM
  rw [if_pos h]

theorem mulM_entry {A B : Mat R} (hA : A.WF) (hB : B.WF) (h : A.ncols = B.nrows) {i j : Nat} (hi : i < A.nrows) (hj : j < B.ncols) :
    matEntry (mulM A B) i j = ∑ x ∈ range A.ncols, matEntry A i x * matEntry B x j := by
  unfold mulM
  conv_lhs => unfold matEntry
  simp only
  rw [getD_map_lt _ A.vals [] [] (by rw [hA.1]; exact hi), getD_map_range _ _ hj,
    dot_eq_sum _ _ A.ncols (Or.inr (by rw [List.length_map, hB.1, h]))]
  apply sum_congr rfl
  intro x hx
  unfold matEntry
  congr 1
  rw [getD_map_lt _ B.vals [] 0 (by rw [hB.1, ← h]; exact mem_range.1 hx)]

/-- The rows side by side. -/
def sideBySide (n : Nat) (ms : List (Mat R)) : Mat R :=
  ⟨n, (ms.map (·.ncols)).sum, (List.range n).map fun i => (ms.map fun x => x.vals.getD i []).flatten⟩

theorem hconcat_ok {ms : List (Mat R)} (n : Nat) (hne : ms ≠ []) (h : ∀ m ∈ ms, m.nrows = n) :
    Mat.hconcat ms = .ok (sideBySide n ms) := by
  unfold Mat.hconcat
  cases ms with
  | nil => exact absurd rfl hne
  | cons m ms =>
    have hm := h m (List.mem_cons_self ..)
    simp only
    rw [if_pos]
    · rw [hm]; rfl
    · rw [List.all_eq_true]
      intro x hx
      simp [h x hx, hm]

theorem sideBySide_flat (n k : Nat) (ms : List (Mat R)) (hk : ms.length = k) (h : ∀ m ∈ ms, m.WF ∧ m.nrows = n ∧ m.ncols = d) :
    (sideBySide n ms).vals.flatten.length = n * (k * d) ∧
    ∀ i < n, ∀ κ < k, ∀ j < d, (sideBySide n ms).vals.flatten.getD ((i * k + κ) * d + j) 0
      = matEntry (ms.getD κ ⟨0, 0, []⟩) i j := by
  have hin : ∀ i < n, ∀ r ∈ (ms.map fun x => x.vals.getD i []), r.length = d := by
    intro i hi r hr
    obtain ⟨m, hm, rfl⟩ := List.mem_map.1 hr
    obtain ⟨w, h1, h2⟩ := h m hm
    have hi' : i < m.vals.length := by rw [w.1, h1]; exact hi
    rw [List.getD_eq_getElem?_getD, List.getElem?_eq_getElem hi', Option.getD_some, w.2 _ (List.getElem_mem hi'), h2]
  have hrow : ∀ r ∈ (sideBySide n ms).vals, r.length = k * d := by
    intro r hr
    simp only [sideBySide, List.mem_map, List.mem_range] at hr
    obtain ⟨i, hi, rfl⟩ := hr
    rw [flatten_length _ (hin i hi), List.length_map, hk]
  refine ⟨by rw [flatten_length _ hrow]; simp [sideBySide], ?_⟩
  intro i hi κ hκ j hj
  have e : (i * k + κ) * d + j = i * (k * d) + (κ * d + j) := by ring
  have hlt : κ * d + j < k * d := by
    calc κ * d + j < κ * d + d := by omega
      _ = (κ + 1) * d := by ring
      _ ≤ k * d := Nat.mul_le_mul_right d hκ
  rw [e, flatten_getD 0 _ hrow i hlt]
  simp only [sideBySide]
  rw [getD_range_any _ _ hi, flatten_getD 0 _ (hin i hi) κ hj, getD_map_lt _ ms ⟨0, 0, []⟩ [] (by rw [hk]; exact hκ)]
  rfl

/-! ### `split` -/

theorem split_ok (pr : PlusRing F R d) (com : Mat R) {n b l : Nat} (hb : 2 ≤ b) (he : Even b) (hl : 1 ≤ l)
    (hs : ∀ a : F, Short (b ^ l) a) (hn : com.vals.flatten.length * l * d < n) :
    ∃ tau, split pr com n b l = .ok tau ∧ tau.length = n ∧ (∀ x ∈ tau, Short b x) ∧
      (∀ x < com.vals.flatten.length, ∑ t ∈ range l, ∑ e ∈ range d,
        algebraMap F R ((b : F) ^ t) * pr.X ^ e * algebraMap F R (tau.getD ((x * l + t) * d + e) 0)
          = com.vals.flatten.getD x 0) ∧
      ∀ x, com.vals.flatten.length * l * d ≤ x → tau.getD x 0 = 0 := by
  have hdec : ∀ x : R, _ := fun x => dgR_ok pr hb he hl (a := x) fun i => hs _
  have h1 : gadgetRows pr b l com = .ok (com.vals.map fun row => (row.map (dgR pr b l)).flatten) := by
    unfold gadgetRows
    apply mapRes_ok
    intro row _
    rw [mapRes_ok (g := dgR pr b l) fun x _ => (hdec x).1, bind_ok']
  have h2 : ∀ vals : List (List R), (vals.map fun row => (row.map (dgR pr b l)).flatten).flatten = (vals.flatten.map (dgR pr b l)).flatten := by
    intro vals
    induction vals with
    | nil => rfl
    | cons r rs ih => simp [ih]
  set E := com.vals.flatten with hE
  have hl1 : ∀ r ∈ E.map (dgR pr b l), r.length = l := by
    intro r hr
    obtain ⟨x, _, rfl⟩ := List.mem_map.1 hr
    exact (hdec x).2.1
  have hl2 : ∀ r ∈ ((E.map (dgR pr b l)).flatten.map pr.coeffs), r.length = d := by
    intro r hr
    obtain ⟨x, _, rfl⟩ := List.mem_map.1 hr
    exact coeffs_length pr x
  set tau0 := ((E.map (dgR pr b l)).flatten.map pr.coeffs).flatten with htau0
  have hlen : tau0.length = E.length * l * d := by
    rw [htau0, flatten_length _ hl2, List.length_map, flatten_length _ hl1, List.length_map]
  refine ⟨tau0 ++ List.replicate (n - tau0.length) 0, ?_, ?_, ?_, ?_, ?_⟩
  · unfold split
    rw [h1, bind_ok']
    simp only [h2, ← hE, ← htau0]
    rw [if_pos (by omega)]
  · simp; omega
  · intro x hx
    rcases List.mem_append.1 hx with hx | hx
    · rw [htau0] at hx
      obtain ⟨r, hr, hx⟩ := List.mem_flatten.1 hx
      obtain ⟨y, hy, rfl⟩ := List.mem_map.1 hr
      obtain ⟨i, rfl⟩ := List.mem_ofFn.1 hx
      obtain ⟨r', hr', hy⟩ := List.mem_flatten.1 hy
      obtain ⟨z, _, rfl⟩ := List.mem_map.1 hr'
      exact (hdec z).2.2.2 y hy i
    · rw [(List.mem_replicate.1 hx).2]
      exact short_zero b
  · intro x hx
    have key : ∀ t ∈ range l, ∑ e ∈ range d, algebraMap F R ((b : F) ^ t) * pr.X ^ e
        * algebraMap F R ((tau0 ++ List.replicate (n - tau0.length) 0).getD ((x * l + t) * d + e) 0)
        = (b : R) ^ t * (dgR pr b l (E.getD x 0)).getD t 0 := by
      intro t ht
      have ht' := mem_range.1 ht
      rw [← sum_coeff pr ((dgR pr b l (E.getD x 0)).getD t 0), mul_sum]
      apply sum_congr rfl
      intro e hee
      have he' := mem_range.1 hee
      have hxt : x * l + t < E.length * l := by
        calc x * l + t < x * l + l := by omega
          _ = (x + 1) * l := by ring
          _ ≤ E.length * l := Nat.mul_le_mul_right l hx
      have hxe : (x * l + t) * d + e < tau0.length := by
        rw [hlen]
        calc (x * l + t) * d + e < (x * l + t) * d + d := by omega
          _ = (x * l + t + 1) * d := by ring
          _ ≤ E.length * l * d := Nat.mul_le_mul_right d hxt
      rw [List.getD_append _ _ _ _ hxe, htau0, flatten_getD 0 _ hl2 _ he',
        getD_map_lt _ _ 0 [] (by rw [flatten_length _ hl1, List.length_map]; exact hxt), flatten_getD 0 _ hl1 _ ht',
        getD_map_lt _ _ 0 [] hx, map_pow, map_natCast, mul_assoc]
    rw [sum_congr rfl key]
    exact (hdec _).2.2.1
  · intro x hx
    rw [List.getD_append_right _ _ _ _ (by rw [hlen]; exact hx)]
    by_cases h : x - tau0.length < n - tau0.length
    · simp [List.getD_eq_getElem?_getD, h]
    · rw [getD_out _ (by simp; omega)]

/-! ### `from_f` -/

theorem fromF_ok (pr : PlusRing F R d) {f : List R} {A : Mat R} {dp : DParams} (hA : A.WF) (hAn : A.ncols = f.length)
    (hb : dp.b = d / 2) (hb2 : 2 ≤ dp.b) (he : Even dp.b) (hk : 1 ≤ dp.k) (hl : 1 ≤ dp.l)
    (hf : ∀ x ∈ f, ∀ i, Short (dp.b ^ dp.k) (pr.coeff x i)) (hs : ∀ a : F, Short (dp.b ^ dp.l) a)
    (hn : A.nrows * dp.k * d * dp.l * d < f.length) :
    ∃ inst, fromF pr f A dp = .ok inst ∧ inst.f = f ∧ RgValid pr f.length dp.k inst f ∧
      RgCommitted pr A dp.k dp.l inst ∧ inst.fcoms.cmF = commit A f ∧ ∀ x ∈ inst.tau, Short dp.b x := by
  have hbd : dp.b < d := by omega
  have hfne : f ≠ [] := by rintro rfl; simp at hn
  set Ms := (List.range dp.k).map (monoM pr dp.b dp.k f) with hMs
  have h1 := digitTable_ok pr hb2 he hk hf
  have h2 : mapRes (monoMat pr (f.map fun r => (pr.coeffs r).map (dgF pr dp.b dp.k))) (List.range dp.k) = .ok Ms :=
    mapRes_ok fun κ _ => monoMat_ok pr hb2 hbd he hk hfne hf κ
  have hM : ∀ D ∈ Ms, ∃ κ < dp.k, D = monoM pr dp.b dp.k f κ := by
    intro D hD
    obtain ⟨κ, hκ, rfl⟩ := List.mem_map.1 hD
    exact ⟨κ, List.mem_range.1 hκ, rfl⟩
  have h3 : mapRes A.tryMulMat Ms = .ok (Ms.map (mulM A)) := by
    apply mapRes_ok
    intro D hD
    obtain ⟨κ, _, rfl⟩ := hM D hD
    exact tryMulMat_ok hAn
  have hC : ∀ D ∈ Ms.map (mulM A), D.WF ∧ D.nrows = A.nrows ∧ D.ncols = d := by
    intro D hD
    obtain ⟨D', hD', rfl⟩ := List.mem_map.1 hD
    obtain ⟨κ, _, rfl⟩ := hM D' hD'
    exact ⟨mulM_wf hA _, rfl, rfl⟩
  have h4 : Mat.hconcat (Ms.map (mulM A)) = .ok (sideBySide A.nrows (Ms.map (mulM A))) := by
    apply hconcat_ok _ _ (fun m hm => (hC m hm).2.1)
    intro h0
    have := congrArg List.length h0
    simp [hMs] at this
    omega
  obtain ⟨hfl, hfe⟩ := sideBySide_flat (d := d) A.nrows dp.k (Ms.map (mulM A)) (by simp [hMs]) hC
  obtain ⟨tau, h5, ht1, ht2, ht3, ht4⟩ := split_ok pr (sideBySide A.nrows (Ms.map (mulM A))) (n := f.length) hb2 he hl hs (by
    rw [hfl]
    calc _ = A.nrows * dp.k * d * dp.l * d := by ring
      _ < _ := hn)
  have h6 : mapRes (expUnwrap pr) tau = .ok (tau.map (expV pr)) := mapRes_ok fun x hx => (expV_ok pr hbd (ht2 x hx)).1
  refine ⟨⟨Ms, tau, tau.map (expV pr), f, Ms.map (mulM A), ⟨commit A f, commit A (tau.map (algebraMap F R)), commit A (tau.map (expV pr))⟩⟩,
    ?_, rfl, ?_, ?_, rfl, ht2⟩
  · unfold fromF
    rw [h1, bind_ok', h2, bind_ok', h3, bind_ok', h4, bind_ok', ← hb, h5, bind_ok', h6, bind_ok', commit_eq hA hAn.symm, bind_ok',
      commit_eq hA (by rw [List.length_map, ht1, hAn]), bind_ok', commit_eq hA (by rw [List.length_map, ht1, hAn]), bind_ok']
  · have hdm : ∀ κ < dp.k, Ms.getD κ ⟨0, 0, []⟩ = monoM pr dp.b dp.k f κ := fun κ hκ => getD_range_any _ _ hκ
    refine ⟨rfl, rfl, ht1, by simp [ht1], by simp [hMs], ?_, ?_, ?_, ?_, ?_⟩
    · intro D hD
      obtain ⟨κ, _, rfl⟩ := hM D hD
      exact ⟨monoM_wf pr _ _ _ _, rfl, rfl⟩
    · intro D hD i j
      obtain ⟨κ, _, rfl⟩ := hM D hD
      by_cases hi : i < f.length
      · by_cases hj : j < d
        · rw [monoM_entry pr κ hi hj]
          refine (expV_ok pr hbd (digit_short pr hb2 he hk (hf _ ?_ _) κ)).2.1
          rw [List.getD_eq_getElem?_getD, List.getElem?_eq_getElem hi, Option.getD_some]
          exact List.getElem_mem hi
        · left
          unfold matEntry monoM
          simp only
          rw [getD_map_lt _ f 0 [] hi, getD_out _ (by rw [List.length_map, coeffs_length]; omega)]
      · left
        rw [← col_getD (monoM_wf pr _ _ _ _), getD_out _ (by simp [monoM]; omega)]
    · intro x hx
      obtain ⟨y, hy, rfl⟩ := List.mem_map.1 hx
      exact (expV_ok pr hbd (ht2 y hy)).2.1
    · intro i hi
      have hi' : i < tau.length := by rw [ht1]; exact hi
      change pr.ct (pr.psi * (tau.map (expV pr)).getD i 0) = tau.getD i 0
      rw [getD_map_lt _ tau 0 0 hi']
      refine (expV_ok pr hbd (ht2 _ ?_)).2.2
      rw [List.getD_eq_getElem?_getD, List.getElem?_eq_getElem hi', Option.getD_some]
      exact List.getElem_mem hi'
    · intro i hi j
      have hmem : f.getD i 0 ∈ f := by
        rw [List.getD_eq_getElem?_getD, List.getElem?_eq_getElem hi, Option.getD_some]
        exact List.getElem_mem hi
      have hsh := hf _ hmem j
      refine Eq.trans ?_ (dgF_ok pr hb2 he hk hsh).2.2.1
      apply sum_congr rfl
      intro κ hκ
      unfold digitMat
      simp only
      rw [hdm κ (mem_range.1 hκ), monoM_entry pr κ hi j.2, (expV_ok pr hbd (digit_short pr hb2 he hk hsh κ)).2.2, hb]
  · have hdm : ∀ κ < dp.k, Ms.getD κ ⟨0, 0, []⟩ = monoM pr dp.b dp.k f κ := fun κ hκ => getD_range_any _ _ hκ
    have hcm : ∀ κ < dp.k, (Ms.map (mulM A)).getD κ ⟨0, 0, []⟩ = mulM A (monoM pr dp.b dp.k f κ) := by
      intro κ hκ
      rw [getD_map_lt _ Ms ⟨0, 0, []⟩ _ (by simp [hMs]; exact hκ), hdm κ hκ]
    refine ⟨by simp [hMs], hC, ?_, ?_, ?_, rfl, rfl⟩
    · intro κ hκ i hi j hj
      unfold comMat digitMat
      simp only
      rw [hcm κ hκ, hdm κ hκ]
      exact mulM_entry hA (monoM_wf pr _ _ _ _) hAn hi hj
    · intro i hi κ hκ j hj
      have hlt : (i * dp.k + κ) * d + j < A.nrows * (dp.k * d) := by
        have h1 : i * dp.k + κ + 1 ≤ A.nrows * dp.k := by
          calc i * dp.k + κ + 1 ≤ i * dp.k + dp.k := by omega
            _ = (i + 1) * dp.k := by ring
            _ ≤ A.nrows * dp.k := Nat.mul_le_mul_right _ hi
        calc (i * dp.k + κ) * d + j < (i * dp.k + κ) * d + d := by omega
          _ = (i * dp.k + κ + 1) * d := by ring
          _ ≤ A.nrows * dp.k * d := Nat.mul_le_mul_right d h1
          _ = _ := by ring
      have := ht3 ((i * dp.k + κ) * d + j) (by rw [hfl]; exact hlt)
      rw [hfe i hi κ hκ j hj, hb] at this
      exact this
    · intro x hx
      apply ht4
      rw [hfl]
      calc _ = A.nrows * dp.k * d * dp.l * d := by ring
        _ ≤ x := hx

end Verif.Plus
