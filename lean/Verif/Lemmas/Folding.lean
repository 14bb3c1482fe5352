import Verif.Spec.Folding
import Verif.Model.Folding
import Verif.Lemmas.Decomposition
import Verif.Lemmas.Rotation
import Mathlib.Algebra.Order.Group.Unbundled.Int

/-! Helper lemmas for the folding subprotocol. -/

set_option linter.unusedSectionVars false
set_option linter.unusedSimpArgs false

namespace Verif

open Finset Spec

section Generic
variable {R : Type} [CommRing R]

theorem Ioo_succ {b : Nat} (hb : 1 ≤ b) :
    Ioo (-((b + 1 : Nat) : ℤ)) ((b + 1 : Nat) : ℤ)
      = insert (b : ℤ) (insert (-(b : ℤ)) (Ioo (-(b : ℤ)) b)) := by
  ext x
  simp only [mem_Ioo, mem_insert]
  omega

theorem rangePoly_succ {b : Nat} (hb : 1 ≤ b) (x : R) :
    rangePoly (b + 1) x = ((x - b) * (x + b)) * rangePoly b x := by
  unfold rangePoly
  rw [Ioo_succ hb, prod_insert (by simp; omega), prod_insert (by simp)]
  push_cast
  ring

theorem rangePoly_one (x : R) : rangePoly 1 x = x := by
  unfold rangePoly
  have : Ioo (-((1 : Nat) : ℤ)) ((1 : Nat) : ℤ) = {0} := by
    ext y; simp only [mem_Ioo, mem_singleton]; omega
  rw [this]
  simp

theorem rangePoly_eq (b : Nat) (x : R) :
    rangePoly (b + 1) x = x * ∏ c ∈ range b, (x * x - (((c + 1) * (c + 1) : Nat) : R)) := by
  induction b with
  | zero => simp [rangePoly_one]
  | succ b ih =>
    rw [rangePoly_succ (by omega), ih, prod_range_succ]
    push_cast
    ring

theorem rangePoly_zero {b : Nat} (hb : 1 ≤ b) : rangePoly b (0 : R) = 0 := by
  obtain ⟨b, rfl⟩ : ∃ c, b = c + 1 := ⟨b - 1, by omega⟩
  rw [rangePoly_eq, zero_mul]

theorem prod_range' (b : Nat) (f : Nat → R) :
    ((List.range' 1 b).map f).prod = ∏ c ∈ range b, f (c + 1) := by
  induction b with
  | zero => simp
  | succ b ih =>
    rw [List.range'_concat, List.map_append, List.prod_append, ih, prod_range_succ]
    simp [Nat.add_comm]

theorem rangeTerm_eq {b : Nat} (hb : 1 ≤ b) (x : R) : rangeTerm b x = rangePoly b x := by
  obtain ⟨b, rfl⟩ : ∃ c, b = c + 1 := ⟨b - 1, by omega⟩
  unfold rangeTerm
  rw [rangePoly_eq, Nat.add_sub_cancel, prod_range']
  congr 1
  apply prod_congr rfl
  intro c _
  push_cast
  ring

theorem iterate_getD {f : R → R} (a : R) (n : Nat) {i : Nat} (hi : i < n) :
    (List.iterate f a n).getD i 0 = f^[i] a := by
  rw [List.getD_eq_getElem?_getD, List.getElem?_eq_getElem (by simpa using hi)]
  simp

theorem iter_mul_right (a : R) (i : Nat) : (fun x => x * a)^[i] a = a ^ (i + 1) := by
  induction i with
  | zero => simp
  | succ i ih => rw [Function.iterate_succ_apply', ih]; ring

theorem iter_mul_left (a : R) (i : Nat) : (fun x => a * x)^[i] a = a ^ (i + 1) := by
  induction i with
  | zero => simp
  | succ i ih => rw [Function.iterate_succ_apply', ih]; ring

theorem zipWith_sum {α β : Type} (da : α) (db : β) (f : α → β → R) (l : List α) (m : List β) {n : Nat}
    (h1 : l.length = n) (h2 : m.length = n) :
    (List.zipWith f l m).sum = ∑ i ∈ range n, f (l.getD i da) (m.getD i db) := by
  rw [list_sum_eq_range _ n (by simp [h1, h2])]
  apply sum_congr rfl
  intro i hi
  have hi' := mem_range.1 hi
  simp [List.getD_eq_getElem?_getD, List.getElem?_zipWith, List.getElem?_eq_getElem (h1.symm ▸ hi' : i < l.length),
    List.getElem?_eq_getElem (h2.symm ▸ hi' : i < m.length)]

theorem powSum_eq (a : R) (l : List R) : powSum a l = powComb a l := by
  unfold powSum powComb
  rw [zipWith_sum 0 0 (fun x y => x * y) _ _ (n := l.length) (by simp) rfl]
  apply sum_congr rfl
  intro i hi
  rw [iterate_getD _ _ (mem_range.1 hi), iter_mul_right]

theorem powComb_nil (a : R) : powComb a [] = 0 := by simp [powComb]

theorem powComb_cons (a x : R) (l : List R) : powComb a (x :: l) = (x + powComb a l) * a := by
  unfold powComb
  rw [List.length_cons, sum_range_succ', add_mul, sum_mul, add_comm]
  congr 1
  · simp [mul_comm]
  · apply sum_congr rfl
    intro j _
    simp only [List.getD_cons_succ]
    ring

variable [DecidableEq R]

theorem rangeLoop_eq (f2 : R) (bs : List Nat) (e : R) :
    rangeLoop f2 bs e = e * (bs.map fun b => f2 - ((b * b : Nat) : R)).prod := by
  induction bs generalizing e with
  | nil => simp [rangeLoop]
  | cons b bs ih =>
    unfold rangeLoop
    simp only [List.map_cons, List.prod_cons]
    split
    · rename_i h; rw [h]; simp
    · rw [ih]; ring

theorem rangeLoop_mul {b : Nat} (hb : 1 ≤ b) (f e : R) :
    rangeLoop (f * f) (List.range' 1 (b - 1)) e * f = e * rangePoly b f := by
  obtain ⟨b, rfl⟩ : ∃ c, b = c + 1 := ⟨b - 1, by omega⟩
  rw [rangeLoop_eq, Nat.add_sub_cancel, prod_range', rangePoly_eq]
  ring

theorem combInner_ok (P : Params) (hb : 1 ≤ P.bSmall) (τ : Nat) (vals : List R) (k : Nat) (mu inter : R) (d : Nat)
    (h : 5 + (k * τ + d) < vals.length) :
    combInner P τ vals k mu inter d
      = .ok ((inter + vals.getD 4 0 * rangePoly P.bSmall (vals.getD (5 + (k * τ + d)) 0)) * mu) := by
  unfold combInner
  rw [idx_getD 0 h]
  simp only [bind_ok']
  split
  · rename_i h0
    rw [h0, rangePoly_zero hb]
    split
    · simp
    · rename_i h1
      have : inter = 0 := by simpa using h1
      simp [this]
  · rw [idx_getD 0 (by omega)]
    simp only [bind_ok', rangeLoop_mul hb]

theorem horner_range (g : Nat → R) (mu : R) (n : Nat) (z : R) :
    (List.range n).reverse.foldl (fun acc d => (acc + g d) * mu) z
      = z * mu ^ n + ∑ j ∈ range n, mu ^ (j + 1) * g j := by
  induction n generalizing z with
  | zero => simp
  | succ n ih =>
    rw [List.range_succ, List.reverse_append, List.reverse_singleton, List.singleton_append,
      List.foldl_cons, ih, sum_range_succ]
    ring

theorem foldCombFn_ok (P : Params) (hb : 1 ≤ P.bSmall) (τ : Nat) (mu vals : List R)
    (h : 5 + mu.length * τ ≤ vals.length) :
    foldCombFn P τ mu vals
      = .ok (foldG P.bSmall mu.length τ (fun i => mu.getD i 0) (fun i => vals.getD i 0)) := by
  unfold foldCombFn
  rw [idx_getD 0 (by omega), idx_getD 0 (by omega), idx_getD 0 (by omega), idx_getD 0 (by omega)]
  simp only [bind_ok']
  rw [zipIdx_eq_range mu 0]
  rw [foldRes_ok (g := fun result (p : R × Nat) => result + vals.getD 4 0 * ∑ j ∈ range τ,
    p.1 ^ (j + 1) * rangePoly P.bSmall (vals.getD (5 + (p.2 * τ + j)) 0))]
  · congr 1
    have : ∀ (l : List (R × Nat)) (z : R), l.foldl (fun result (p : R × Nat) => result + vals.getD 4 0
        * ∑ j ∈ range τ, p.1 ^ (j + 1) * rangePoly P.bSmall (vals.getD (5 + (p.2 * τ + j)) 0)) z
        = z + (l.map fun p => vals.getD 4 0
        * ∑ j ∈ range τ, p.1 ^ (j + 1) * rangePoly P.bSmall (vals.getD (5 + (p.2 * τ + j)) 0)).sum := by
      intro l
      induction l with
      | nil => simp
      | cons p l ih => intro z; rw [List.foldl_cons, ih, List.map_cons, List.sum_cons, add_assoc]
    rw [this, List.map_map]
    unfold foldG
    congr 1
    rw [mul_sum, list_sum_eq_range _ mu.length (by simp)]
    apply sum_congr rfl
    intro i hi
    rw [getD_map_range _ _ (mem_range.1 hi)]
    rfl
  · intro result p hp
    obtain ⟨k, hk, rfl⟩ := List.mem_map.1 hp
    have hk' := List.mem_range.1 hk
    rw [foldRes_ok (g := fun inter d => (inter + vals.getD 4 0
      * rangePoly P.bSmall (vals.getD (5 + (k * τ + d)) 0)) * mu.getD k 0)]
    · simp only [bind_ok']
      rw [horner_range (fun d => vals.getD 4 0 * rangePoly P.bSmall (vals.getD (5 + (k * τ + d)) 0))]
      congr 1
      rw [zero_mul, zero_add, mul_sum]
      congr 1
      apply sum_congr rfl
      intro j _
      ring
    · intro inter d hd
      have hd' : d < τ := by simpa using hd
      apply combInner_ok P hb
      change 5 + (k * τ + d) < vals.length
      have : (k + 1) * τ ≤ mu.length * τ := Nat.mul_le_mul_right τ hk'
      have h2 : (k + 1) * τ = k * τ + τ := by ring
      omega

/-! Degree. -/

theorem lineDeg_rangePoly {k d : Nat} {g : List R → R} (hg : LineDeg k 1 g) {b : Nat} (hb : b = d + 1) :
    LineDeg k (2 * d + 1) fun v => rangePoly b (g v) := by
  subst hb
  induction d with
  | zero => simpa [rangePoly_one] using hg
  | succ d ih =>
    have h1 := ((hg.sub (lineDeg_const k 1 ((d + 1 : Nat) : R))).mul
      (hg.add (lineDeg_const k 1 ((d + 1 : Nat) : R)))).mul ih
    refine (h1.mono (by omega)).congr ?_
    intro v _
    rw [rangePoly_succ (by omega)]

theorem foldG_deg {b : Nat} (hb : 1 ≤ b) (K2 τ : Nat) (mu : Nat → R) (k : Nat) :
    LineDeg k (2 * b) fun v : List R => foldG b K2 τ mu (fun i => v.getD i 0) := by
  obtain ⟨d, rfl⟩ : ∃ c, b = c + 1 := ⟨b - 1, by omega⟩
  unfold foldG
  refine ((((lineDeg_coord k 0).mul (lineDeg_coord k 1)).mono (by omega)).add
    (((lineDeg_coord k 2).mul (lineDeg_coord k 3)).mono (by omega))).add ?_
  refine ((lineDeg_coord k 4).mul (d := 1) (e := 2 * d + 1) ?_).mono (by omega)
  refine LineDeg.sum _ fun i _ => LineDeg.sum _ fun j _ => LineDeg.smul _ ?_
  exact lineDeg_rangePoly (lineDeg_coord k _) rfl

/-! MLE arithmetic. -/

/-- `m` has `n` variables (or is the zero polynomial without variables) and table `f`. -/
def MleIs (n : Nat) (m : Mle R) (f : Nat → R) : Prop :=
  (m.numVars = n ∨ (m.numVars = 0 ∧ ∀ i, m.get i = 0)) ∧ ∀ i, m.get i = f i

theorem mleIs_zero (n : Nat) : MleIs n (Mle.zero : Mle R) fun _ => 0 := by
  have : ∀ i, (Mle.zero : Mle R).get i = 0 := by
    intro i; cases i <;> simp [Mle.zero, Mle.get]
  exact ⟨Or.inr ⟨rfl, this⟩, this⟩

theorem not_isZero {m : Mle R} {n : Nat} (hn : 1 ≤ n) (h : m.numVars = n) : m.isZero = false := by
  unfold Mle.isZero
  simp [h]
  omega

theorem isZero_of {m : Mle R} (h : m.numVars = 0) (h2 : ∀ i, m.get i = 0) : m.isZero = true := by
  unfold Mle.isZero
  simp [h, h2]

theorem addAssign_ok {n : Nat} (hn : 1 ≤ n) {a b : Mle R} {f g : Nat → R} (ha : MleIs n a f) (hb : MleIs n b g) :
    ∃ m, a.addAssign b = .ok m ∧ MleIs n m (fun i => f i + g i) ∧
      (a.numVars = n ∨ b.numVars = n → m.numVars = n) := by
  obtain ⟨ha1, ha2⟩ := ha
  obtain ⟨hb1, hb2⟩ := hb
  rcases ha1 with ha1 | ⟨ha1, ha3⟩
  · rcases hb1 with hb1 | ⟨hb1, hb3⟩
    · have e : a.addAssign b = .ok ⟨a.numVars, (List.range (max a.evals.length b.evals.length)).map
          fun i => a.get i + b.get i⟩ := by
        unfold Mle.addAssign
        rw [not_isZero hn ha1, not_isZero hn hb1]
        simp [ha1, hb1]
      refine ⟨_, e, ⟨Or.inl ha1, fun i => ?_⟩, fun _ => ha1⟩
      beta_reduce; rw [← ha2, ← hb2]
      by_cases hi : i < max a.evals.length b.evals.length
      · exact get_map_range _ _ _ hi
      · have h1 : a.evals.length ≤ i := le_trans (le_max_left _ _) (not_lt.1 hi)
        have h2 : b.evals.length ≤ i := le_trans (le_max_right _ _) (not_lt.1 hi)
        unfold Mle.get
        rw [getD_out _ h1, getD_out _ h2, getD_out _ (by simpa using not_lt.1 hi), add_zero]
    · refine ⟨a, (by unfold Mle.addAssign; rw [not_isZero hn ha1, isZero_of hb1 hb3]; simp), ⟨Or.inl ha1, fun i => ?_⟩,
        fun _ => ha1⟩
      beta_reduce; rw [← ha2, ← hb2, hb3, add_zero]
  · refine ⟨b, (by unfold Mle.addAssign; rw [isZero_of ha1 ha3]; simp), ⟨hb1, fun i => ?_⟩, ?_⟩
    · beta_reduce; rw [← ha2, ← hb2, ha3, zero_add]
    · rintro (h | h)
      · omega
      · exact h

theorem smul_ok {n : Nat} {a : Mle R} {f : Nat → R} (ha : MleIs n a f) (c : R) :
    MleIs n (a.smul c) (fun i => f i * c) ∧ (a.smul c).numVars = a.numVars := by
  have hg : ∀ i, (a.smul c).get i = a.get i * c := by
    intro i
    unfold Mle.smul Mle.get
    simp only [List.getD_eq_getElem?_getD, List.getElem?_map]
    rcases a.evals[i]? with _ | x <;> simp
  refine ⟨⟨?_, fun i => by rw [hg, ha.2]⟩, rfl⟩
  rcases ha.1 with h | ⟨h, h2⟩
  · exact Or.inl h
  · exact Or.inr ⟨h, fun i => by rw [hg, h2, zero_mul]⟩

theorem hornerMle_ok {n : Nat} (hn : 1 ≤ n) (ms : List (Mle R)) (hm : ∀ m ∈ ms, m.numVars = n) (c : R) :
    ∃ r, hornerMle ms c = .ok r ∧ MleIs n r (fun i => powComb c (ms.map fun m => m.get i)) ∧
      (ms ≠ [] → r.numVars = n) := by
  induction ms with
  | nil => exact ⟨Mle.zero, rfl, by simpa [powComb_nil] using mleIs_zero n, by simp⟩
  | cons m ms ih =>
    obtain ⟨r, h1, h2, h3⟩ := ih fun m' hm' => hm m' (by simp [hm'])
    have hmn := hm m (by simp)
    obtain ⟨q, e1, e2, e3⟩ := addAssign_ok hn h2 (b := m) (g := m.get) ⟨Or.inl hmn, fun _ => rfl⟩
    obtain ⟨s1, s2⟩ := smul_ok e2 c
    refine ⟨q.smul c, ?_, ?_, fun _ => by rw [s2]; exact e3 (Or.inr hmn)⟩
    · unfold hornerMle at h1 ⊢
      rw [List.reverse_cons, foldRes_append, h1]
      simp only [bind_ok', foldRes, e1]
    · refine ⟨s1.1, fun i => ?_⟩
      rw [s1.2]
      beta_reduce
      rw [List.map_cons, powComb_cons, add_comm]

theorem combineMles_ok {n : Nat} (hn : 1 ≤ n) (K : Nat) (ls : Nat → List (Mle R)) (c : Nat → R)
    (hm : ∀ k < K, ∀ m ∈ ls k, m.numVars = n) :
    ∃ r, combineMles ((List.range K).map fun k => (ls k, c k)) = .ok r ∧
      MleIs n r (fun i => ∑ k ∈ range K, powComb (c k) ((ls k).map fun m => m.get i)) ∧
      ((∃ k < K, ls k ≠ []) → r.numVars = n) := by
  induction K with
  | zero => exact ⟨Mle.zero, rfl, by simpa using mleIs_zero n, by simp⟩
  | succ K ih =>
    obtain ⟨r, h1, h2, h3⟩ := ih fun k hk => hm k (by omega)
    obtain ⟨q, q1, q2, q3⟩ := hornerMle_ok hn (ls K) (hm K (by omega)) (c K)
    obtain ⟨p, e1, e2, e3⟩ := addAssign_ok hn h2 q2
    refine ⟨p, ?_, ?_, ?_⟩
    · unfold combineMles at h1 ⊢
      rw [List.range_succ, List.map_append, foldRes_append, h1]
      simp only [bind_ok', List.map_cons, List.map_nil, foldRes, q1, e1]
    · simpa only [sum_range_succ] using e2
    · rintro ⟨k, hk, hne⟩
      apply e3
      by_cases hkK : k = K
      · exact Or.inr (q3 (hkK ▸ hne))
      · exact Or.inl (h3 ⟨k, by omega, hne⟩)

theorem prepareG13_ok {n : Nat} (hn : 1 ≤ n) (eq : Mle R) (K : Nat) (hK : 1 ≤ K) (fh : Nat → List (Mle R)) (al : Nat → R)
    (hm : ∀ k < K, ∀ m ∈ fh k, m.numVars = n) (hne : ∀ k < K, fh k ≠ []) {ch : Mle R} {g : Nat → R}
    (hch : MleIs n ch g) :
    ∃ r, prepareG13 eq ((List.range K).map fh) ((List.range K).map al) ch = .ok [eq, r] ∧ r.numVars = n ∧
      ∀ i, r.get i = ∑ k ∈ range K, powComb (al k) ((fh k).map fun m => m.get i) + g i := by
  obtain ⟨r, h1, h2, h3⟩ := combineMles_ok hn K fh al hm
  obtain ⟨q, e1, e2, e3⟩ := addAssign_ok hn h2 hch
  refine ⟨q, ?_, e3 (Or.inl (h3 ⟨0, by omega, hne 0 (by omega)⟩)), e2.2⟩
  unfold prepareG13
  rw [zip_range_map, h1]
  simp only [bind_ok', e1]

end Generic

theorem slice_left {α : Type} (site : String) (f : Nat → α) (K : Nat) :
    slice site ((List.range (2 * K)).map f) 0 K = .ok ((List.range K).map f) := by
  unfold slice
  rw [if_pos ⟨by omega, by simp; omega⟩, List.drop_zero, Nat.sub_zero, ← List.map_take, List.take_range]
  congr 3
  omega

theorem slice_right {α : Type} (site : String) (f : Nat → α) (K : Nat) :
    slice site ((List.range (2 * K)).map f) K (2 * K) = .ok ((List.range K).map fun k => f (K + k)) := by
  unfold slice
  rw [if_pos ⟨by omega, by simp⟩]
  congr 1
  apply List.ext_getElem
  · simp
    omega
  · intro i h1 h2
    simp


/-! The sum-check polynomial. -/

section Poly
variable {R : Type} [CommRing R] [DecidableEq R]

/-- Table of `eq(r, ·)`. -/
def eqTable (r : List R) : Mle R := ⟨r.length, (List.range (2 ^ r.length)).map fun i => eqWeight r i⟩

theorem eqTable_get (r : List R) {i : Nat} (hi : i < 2 ^ r.length) : (eqTable r).get i = eqWeight r i :=
  get_map_range _ _ _ hi

theorem eqTable_mle (r p : List R) (h : r.length = p.length) : mle (eqTable r).get p = eqPoly r p := by
  rw [← mle_eqWeight r p h]
  apply mle_congr
  intro i hi
  exact eqTable_get r (by rw [h]; exact hi)

/-- A weighted sum over the tables of `K` witnesses, starting at index `o`. -/
def groupVal (K o : Nat) (fh mz : Nat → List (Mle R)) (al ze : Nat → R) (e : Mle R → R) : R :=
  ∑ k ∈ range K, powComb (al (o + k)) ((fh (o + k)).map e)
    + ∑ k ∈ range K, powComb (ze (o + k)) ((mz (o + k)).map e)

theorem mle_powComb (c : R) (ms : List (Mle R)) (p : List R) :
    mle (fun i => powComb c (ms.map fun m => m.get i)) p = powComb c (ms.map fun m => mle m.get p) := by
  induction ms with
  | nil => simp [powComb_nil, mle_zero]
  | cons m ms ih =>
    simp only [List.map_cons, powComb_cons]
    rw [← ih, ← mle_add]
    simp only [mul_comm _ c]
    rw [← mle_smul]

theorem groupVal_mle (K o : Nat) (fh mz : Nat → List (Mle R)) (al ze : Nat → R) (p : List R) :
    mle (fun i => groupVal K o fh mz al ze fun m => m.get i) p
      = groupVal K o fh mz al ze fun m => mle m.get p := by
  unfold groupVal
  rw [mle_add, mle_sum, mle_sum]
  simp only [mle_powComb]

theorem createFoldPoly_ok (P : Params) (hK : 1 ≤ P.K) {n : Nat} (hn : 1 ≤ n) (fh mz : Nat → List (Mle R))
    (al ze : Nat → R) (beta mu : List R) (r : Nat → List R) (hbeta : beta.length = n) (hmu : mu.length = 2 * P.K)
    (hr : ∀ k < 2 * P.K, (r k).length = n) (hf : ∀ k < 2 * P.K, ∀ m ∈ fh k, m.numVars = n)
    (hz : ∀ k < 2 * P.K, ∀ m ∈ mz k, m.numVars = n) (hne : ∀ k < 2 * P.K, fh k ≠ []) :
    ∃ ch1 ch2 c1 c2,
      challengedMz ((List.range P.K).map mz) ((List.range P.K).map ze) = .ok ch1 ∧
      challengedMz ((List.range P.K).map fun k => mz (P.K + k)) ((List.range P.K).map fun k => ze (P.K + k))
        = .ok ch2 ∧
      createFoldPoly P n ((List.range (2 * P.K)).map fh) ((List.range (2 * P.K)).map al) ch1 ch2
          ((List.range (2 * P.K)).map r) beta mu
        = .ok ([eqTable (r 0), c1, eqTable (r P.K), c2, eqTable beta] ++ ((List.range (2 * P.K)).map fh).flatten,
            2 * P.bSmall) ∧
      c1.numVars = n ∧ c2.numVars = n ∧
      (∀ i, c1.get i = groupVal P.K 0 fh mz al ze fun m => m.get i) ∧
      (∀ i, c2.get i = groupVal P.K P.K fh mz al ze fun m => m.get i) := by
  obtain ⟨ch1, a1, a2, -⟩ := combineMles_ok hn P.K mz ze fun k hk => hz k (by omega)
  obtain ⟨ch2, b1, b2, -⟩ := combineMles_ok hn P.K (fun k => mz (P.K + k)) (fun k => ze (P.K + k))
    fun k hk => hz _ (by omega)
  obtain ⟨c1, d1, d2, d3⟩ := prepareG13_ok hn (eqTable (r 0)) P.K hK fh al (fun k hk => hf k (by omega))
    (fun k hk => hne k (by omega)) a2
  obtain ⟨c2, e1, e2, e3⟩ := prepareG13_ok hn (eqTable (r P.K)) P.K hK (fun k => fh (P.K + k))
    (fun k => al (P.K + k)) (fun k hk => hf _ (by omega)) (fun k hk => hne _ (by omega)) b2
  have ne : ∀ l : List R, l.length = n → l ≠ [] := by
    intro l hl h
    rw [h] at hl
    simp at hl
    omega
  refine ⟨ch1, ch2, c1, c2, ?_, ?_, ?_, d2, e2, ?_, ?_⟩
  · unfold challengedMz
    rw [zip_range_map, a1]
  · unfold challengedMz
    rw [zip_range_map, b1]
  · unfold createFoldPoly
    rw [if_neg (by simp [hbeta, hmu]), idx_ok (by simp; omega), idx_ok (by simp; omega), slice_left, slice_left,
      idx_ok (by simp; omega), slice_right, slice_right, buildEq_ok beta (ne _ hbeta)]
    simp only [bind_ok', List.getElem_map, List.getElem_range]
    rw [buildEq_ok _ (ne _ (hr 0 (by omega))), buildEq_ok _ (ne _ (hr P.K (by omega)))]
    simp only [bind_ok']
    unfold eqTable at d1 e1
    rw [d1, e1]
    rfl
  · intro i
    rw [d3]
    simp [groupVal]
  · intro i
    rw [e3]
    rfl

theorem foldG_val (b K2 τ : Nat) (mu : Nat → R) (q0 q1 q2 q3 q4 : Mle R) (fh : Nat → List (Mle R))
    (hl : ∀ k < K2, (fh k).length = τ) (e : Mle R → R) :
    foldG b K2 τ mu (fun i => (([q0, q1, q2, q3, q4] ++ ((List.range K2).map fh).flatten).map e).getD i 0)
      = e q0 * e q1 + e q2 * e q3 + e q4 * ∑ i ∈ range K2, ∑ j ∈ range τ,
          mu i ^ (j + 1) * rangePoly b (((fh i).map e).getD j 0) := by
  unfold foldG
  congr 2
  apply sum_congr rfl
  intro i hi
  apply sum_congr rfl
  intro j hj
  congr 2
  have e1 : ([q0, q1, q2, q3, q4] ++ ((List.range K2).map fh).flatten).map e
      = [e q0, e q1, e q2, e q3, e q4] ++ ((List.range K2).map fun k => (fh k).map e).flatten := by
    rw [List.map_append, List.map_flatten, List.map_map]
    rfl
  rw [e1]
  beta_reduce
  rw [List.getD_append_right _ _ _ _ (by simp)]
  have e2 : 5 + (i * τ + j) - [e q0, e q1, e q2, e q3, e q4].length = i * τ + j := by simp
  rw [e2, flatten_getD (L := τ) 0 _ (by
    intro l hl'
    obtain ⟨k, hk, rfl⟩ := List.mem_map.1 hl'
    rw [List.length_map, hl k (List.mem_range.1 hk)]) i (mem_range.1 hj)]
  congr 1
  simp [List.getD_eq_getElem?_getD, mem_range.1 hi]

theorem idx_range {α : Type} (site : String) (f : Nat → α) {n i : Nat} (h : i < n) :
    idx site ((List.range n).map f) i = .ok (f i) := by
  rw [idx_ok (by simpa using h)]
  simp

theorem expectedValue_ok (P : Params) (hb : 1 ≤ P.bSmall) (al ze e : Nat → R) (mu : List R) (hmu : mu.length = 2 * P.K)
    (th et : Nat → List R) (eS : R) :
    expectedValue P ((List.range (2 * P.K)).map al) mu ((List.range (2 * P.K)).map th) eS
        ((List.range (2 * P.K)).map e) ((List.range (2 * P.K)).map ze) ((List.range (2 * P.K)).map et)
      = .ok (∑ i ∈ range (2 * P.K), ((e i * powComb (al i) (th i)
          + eS * ∑ j ∈ range (th i).length, mu.getD i 0 ^ (j + 1) * rangePoly P.bSmall ((th i).getD j 0))
          + e i * powComb (ze i) (et i))) := by
  unfold expectedValue
  rw [mapRes_ok (g := fun i => ((e i * powComb (al i) (th i)
          + eS * ∑ j ∈ range (th i).length, mu.getD i 0 ^ (j + 1) * rangePoly P.bSmall ((th i).getD j 0))
          + e i * powComb (ze i) (et i)))]
  · simp only [bind_ok']
    rw [list_sum_eq_range _ (2 * P.K) (by simp)]
    congr 1
    apply sum_congr rfl
    intro i hi
    rw [getD_map_range _ _ (mem_range.1 hi)]
  · intro i hi
    have hi' := List.mem_range.1 hi
    unfold expectedSummand
    rw [idx_range _ _ hi', idx_range _ _ hi', idx_range _ _ hi', idx_range _ _ hi', idx_range _ _ hi',
      idx_getD 0 (by rw [hmu]; exact hi')]
    simp only [bind_ok', powSum_eq]
    rw [zipWith_sum 0 0 (fun p t => p * e i * t) _ (th i) (n := (th i).length) (by simp) rfl,
      zipWith_sum 0 0 (fun p t => p * rangeTerm P.bSmall t) _ (th i) (n := (th i).length) (by simp) rfl]
    congr 3
    · unfold powComb
      rw [mul_sum]
      apply sum_congr rfl
      intro j hj
      rw [iterate_getD _ _ (mem_range.1 hj), iter_mul_left]
      ring
    · congr 1
      apply sum_congr rfl
      intro j hj
      rw [iterate_getD _ _ (mem_range.1 hj), iter_mul_left, rangeTerm_eq hb]

theorem sum_two_mul (K : Nat) (f : Nat → R) :
    ∑ i ∈ range (2 * K), f i = ∑ k ∈ range K, f (0 + k) + ∑ k ∈ range K, f (K + k) := by
  rw [two_mul, sum_range_add]
  simp

/-- The expected value is the combination of the evaluations. -/
theorem expected_eq (b K τ : Nat) (fh mz : Nat → List (Mle R)) (al ze mu : Nat → R) (e1 e2 eS : R)
    (hl : ∀ k < 2 * K, (fh k).length = τ) (ev : Mle R → R) (e : Nat → R) (he1 : ∀ k < K, e k = e1)
    (he2 : ∀ k < K, e (K + k) = e2) :
    ∑ i ∈ range (2 * K), ((e i * powComb (al i) ((fh i).map ev)
          + eS * ∑ j ∈ range ((fh i).map ev).length, mu i ^ (j + 1) * rangePoly b (((fh i).map ev).getD j 0))
          + e i * powComb (ze i) ((mz i).map ev))
      = e1 * groupVal K 0 fh mz al ze ev + e2 * groupVal K K fh mz al ze ev
        + eS * ∑ i ∈ range (2 * K), ∑ j ∈ range τ, mu i ^ (j + 1) * rangePoly b (((fh i).map ev).getD j 0) := by
  have h1 : ∀ i ∈ range (2 * K), ((e i * powComb (al i) ((fh i).map ev)
          + eS * ∑ j ∈ range ((fh i).map ev).length, mu i ^ (j + 1) * rangePoly b (((fh i).map ev).getD j 0))
          + e i * powComb (ze i) ((mz i).map ev))
      = e i * (powComb (al i) ((fh i).map ev) + powComb (ze i) ((mz i).map ev))
        + eS * ∑ j ∈ range τ, mu i ^ (j + 1) * rangePoly b (((fh i).map ev).getD j 0) := by
    intro i hi
    rw [List.length_map, hl i (mem_range.1 hi)]
    ring
  rw [sum_congr rfl h1, sum_add_distrib, ← mul_sum]
  congr 1
  rw [sum_two_mul]
  unfold groupVal
  congr 1
  · rw [← sum_add_distrib, mul_sum]
    apply sum_congr rfl
    intro k hk
    rw [zero_add, he1 k (mem_range.1 hk)]
  · rw [← sum_add_distrib, mul_sum]
    apply sum_congr rfl
    intro k hk
    rw [he2 k (mem_range.1 hk)]

theorem foldClaims_ok (K2 : Nat) (al ze : Nat → R) (st : Nat → LCCCS R) :
    foldClaims ((List.range K2).map al) ((List.range K2).map ze) ((List.range K2).map st)
      = ∑ i ∈ range K2, (powComb (al i) (st i).v + powComb (ze i) (st i).u) := by
  unfold foldClaims
  rw [sum_add_distrib]
  simp only [powSum_eq]
  congr 1
  · rw [zipWith_map_self, list_sum_eq_range _ K2 (by simp)]
    apply sum_congr rfl
    intro i hi
    rw [getD_map_range _ _ (mem_range.1 hi)]
  · rw [zipWith_map_self, list_sum_eq_range _ K2 (by simp)]
    apply sum_congr rfl
    intro i hi
    rw [getD_map_range _ _ (mem_range.1 hi)]

theorem sum_eqTable (r : List R) (f : Nat → R) :
    ∑ b ∈ range (2 ^ r.length), (eqTable r).get b * f b = mle f r := by
  unfold mle
  apply sum_congr rfl
  intro b hb
  rw [eqTable_get r (mem_range.1 hb), mul_comm]

end Poly


/-! Challenges. -/

section Squeeze
variable {F R σ : Type} [Field F] [DecidableEq F] [CommRing R] [DecidableEq R] [Algebra F R]

theorem squeezeFold_ok (P : Params) (hK : 1 ≤ P.K) (T : Transcript F R σ) (s : σ) (n : Nat) :
    ∃ al ze : Nat → R, ∃ mu beta s', squeezeFold P T s n = .ok (⟨(List.range (2 * P.K)).map al, beta,
        (List.range (2 * P.K)).map ze, mu⟩, s') ∧ mu.length = 2 * P.K ∧ beta.length = n ∧ mu.getD (2 * P.K - 1) 0 = 1 := by
  have key : ∀ (l : List F) (k : Nat), l.length = k →
      l.map (algebraMap F R) = (List.range k).map fun i => algebraMap F R (l.getD i 0) := by
    intro l k hl
    apply List.ext_getElem
    · simp [hl]
    · intro i h1 h2
      have : i < l.length := by simpa using h1
      simp [List.getD_eq_getElem?_getD, this]
  unfold squeezeFold
  simp only
  have hu : usub "2 * P::K - 1" (2 * P.K) 1 = .ok (2 * P.K - 1) := by
    unfold usub
    rw [if_pos (by omega)]
  rw [hu]
  simp only [bind_ok']
  rw [key _ _ (challenges_length T (2 * P.K) (absorbLabel T s "alpha_s")),
    key _ _ (challenges_length T (2 * P.K) (absorbLabel T _ "zeta_s"))]
  refine ⟨_, _, _, _, _, rfl, ?_, ?_, ?_⟩
  · rw [List.length_append, List.length_map, challenges_length, List.length_singleton]
    omega
  · rw [List.length_map, challenges_length]
  · rw [List.getD_eq_getElem?_getD, List.getElem?_append_right (by rw [List.length_map, challenges_length]),
      List.length_map, challenges_length, Nat.sub_self]
    rfl

end Squeeze

/-! Folding the statements and witnesses. -/

section Fold
variable {R : Type} [CommRing R] [DecidableEq R]

theorem foldl_zipAssign_add {n : Nat} (K : Nat) (g : Nat → List R) (hg : ∀ k < K, (g k).length = n) (z : List R)
    (hz : z.length = n) :
    (((List.range K).map g).foldl (zipAssign (· + ·)) z).length = n ∧ ∀ i < n,
      (((List.range K).map g).foldl (zipAssign (· + ·)) z).getD i 0
        = z.getD i 0 + ∑ k ∈ range K, (g k).getD i 0 := by
  induction K with
  | zero => simp [hz]
  | succ K ih =>
    obtain ⟨h1, h2⟩ := ih fun k hk => hg k (by omega)
    have hK := hg K (by omega)
    rw [List.range_succ, List.map_append, List.foldl_append]
    simp only [List.map_cons, List.map_nil, List.foldl_cons, List.foldl_nil]
    refine ⟨by rw [zipAssign_length, h1], fun i hi => ?_⟩
    rw [zipAssign_eq_zipWith _ _ _ (by rw [h1, hK]), sum_range_succ, ← add_assoc, ← h2 i hi]
    simp [List.getD_eq_getElem?_getD, List.getElem?_zipWith, h1, hK, hi]

theorem fold_comb {n : Nat} (K : Nat) (rho : Nat → R) (g : Nat → List R) (hg : ∀ k < K, (g k).length = n) :
    IsComb K rho g ((List.zipWith (fun r (e : List R) => e.map fun x => r * x) ((List.range K).map rho)
      ((List.range K).map g)).foldl (zipAssign (· + ·)) (List.replicate n 0)) n := by
  rw [zipWith_map_self]
  obtain ⟨h1, h2⟩ := foldl_zipAssign_add K (fun k => (g k).map fun x => rho k * x) (n := n)
    (fun k hk => by rw [List.length_map, hg k hk]) (List.replicate n 0) (by simp)
  refine ⟨h1, hg, fun i hi => ?_⟩
  rw [h2 i hi]
  simp only [List.getD_eq_getElem?_getD, List.getElem?_replicate, hi, if_true, Option.getD_some, zero_add]
  apply sum_congr rfl
  intro k hk
  have : i < (g k).length := by rw [hg k (mem_range.1 hk)]; exact hi
  simp [this]

theorem cm_comb {κ : Nat} (K : Nat) (rho : Nat → R) (c : Nat → Commitment R) (hc : ∀ k < K, (c k).val.length = κ) :
    IsComb K rho (fun k => (c k).val) (((List.range K).map fun k => (c k).smul (rho k)).foldl Commitment.add
      (Commitment.zeroed κ)).val κ := by
  refine ⟨by rw [foldl_add_length]; simp [Commitment.zeroed], hc, fun i hi => ?_⟩
  rw [foldl_add_getD _ _ (by
    intro d hd
    obtain ⟨k, hk, rfl⟩ := List.mem_map.1 hd
    rw [smul_val_length, hc k (List.mem_range.1 hk)]
    simp [Commitment.zeroed]), List.map_map, list_sum_eq_range _ K (by simp)]
  have : (Commitment.zeroed κ : Commitment R).val.getD i 0 = 0 := by
    simp [Commitment.zeroed, List.getD_eq_getElem?_getD, List.getElem?_replicate, hi]
  rw [this, zero_add]
  apply sum_congr rfl
  intro k hk
  rw [getD_map_range _ _ (mem_range.1 hk)]
  change ((c k).smul (rho k)).val.getD i 0 = _
  rw [smul_val_getD, mul_comm]

end Fold

section RingFold
variable {Fp F C σ : Type} {N τ : Nat} [Field Fp] [Field F] [DecidableEq F] [Algebra Fp F] [CommRing C]
  [Algebra Fp C]

theorem f0_comb {n : Nat} (K : Nat) (hK : 1 ≤ K) (rho : Nat → Fin N → F) (w : Nat → Witness (Fin N → F) C)
    (hw : ∀ k < K, (w k).f.length = n) :
    ∃ f, computeF0 ((List.range K).map rho) ((List.range K).map w) = .ok f ∧ IsComb K rho (fun k => (w k).f) f n := by
  have key : ∀ k ≤ K, (((List.range k).map fun k => (rho k, w k)).foldl
      (fun acc p => List.zipWith (fun a w => a + p.1 * w) acc p.2.f) (List.replicate n (0 : Fin N → F))).length = n ∧
      ∀ i < n, (((List.range k).map fun k => (rho k, w k)).foldl
      (fun acc p => List.zipWith (fun a w => a + p.1 * w) acc p.2.f)
        (List.replicate n (0 : Fin N → F))).getD i 0 = ∑ j ∈ range k, rho j * (w j).f.getD i 0 := by
    intro k
    induction k with
    | zero =>
      intro _
      refine ⟨by simp, fun i hi => ?_⟩
      simp [List.getD_eq_getElem?_getD, List.getElem?_replicate, hi]
    | succ k ih =>
      intro hk
      obtain ⟨h1, h2⟩ := ih (by omega)
      have hl := hw k (by omega)
      rw [List.range_succ, List.map_append, List.foldl_append]
      simp only [List.map_cons, List.map_nil, List.foldl_cons, List.foldl_nil]
      refine ⟨by rw [List.length_zipWith, h1, hl, min_self], fun i hi => ?_⟩
      rw [sum_range_succ, ← h2 i hi]
      simp [List.getD_eq_getElem?_getD, List.getElem?_zipWith, h1, hl, hi]
  obtain ⟨h1, h2⟩ := key K le_rfl
  refine ⟨_, ?_, h1, hw, h2⟩
  unfold computeF0
  rw [idx_range _ _ (by omega), zip_range_map]
  simp only [bind_ok', hw 0 (by omega)]

/-- All coefficients short implies that the range polynomial vanishes on the tables. -/
theorem range_vanish (rd : RingData Fp F C N τ) {b : Nat} (hb : 2 ≤ b) {c : C} (h : ∀ i, Short b (rd.coeff c i))
    (j : Nat) : rangePoly b (fhatEntry rd c j) = 0 := by
  funext a
  unfold rangePoly
  rw [Finset.prod_apply]
  have : ∃ n : ℤ, 2 * n.natAbs ≤ b ∧ fhatEntry rd c j a = (n : F) := by
    unfold fhatEntry
    split
    · rename_i hh
      obtain ⟨n, h1, h2⟩ := h ⟨_, hh⟩
      exact ⟨n, h1, by rw [h2, map_intCast]⟩
    · exact ⟨0, by simp, by simp⟩
  obtain ⟨n, h1, h2⟩ := this
  apply prod_eq_zero (i := n)
  · rw [mem_Ioo]; omega
  · simp [h2]

end RingFold

end Verif
