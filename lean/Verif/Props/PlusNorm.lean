import Verif.Model.PlusBound
import Verif.Lemmas.PlusNorm
import Verif.Props.PlusFold
import Verif.Props.ExampleCyclo

/-!
# Property theorems: `estimate_bound` and the norm of the accumulated witnesses (C72)
-/

set_option linter.unusedSectionVars false
set_option linter.unusedSimpArgs false

namespace Verif.Props

open Finset Verif Verif.Spec Verif.Plus

variable {F R σ : Type} {d : Nat}
variable [Field F] [CommRing R] [Algebra F R] [DecidableEq F] [DecidableEq R]

/-- **C72**: a bound `B` is at least `estimate_bound(sop, L, d, k)` if and only if `sop L (B + d / 2 + d k + 1) ≤ B^2`. -/
theorem C72_estimate (sop L d k B : Nat) : estimateBound sop L d k ≤ B ↔ sop * L * (B + (d / 2 + d * k + 1)) ≤ B ^ 2 := by
  set a := sop * L with hadef
  set c := d / 2 + d * k + 1 with hcdef
  have hc : 0 < c := by omega
  have hD : (0 : ℝ) ≤ ((a * a + 4 * a * c : Nat) : ℝ) := Nat.cast_nonneg _
  have hsq := Real.sq_sqrt hD
  have hnn := Real.sqrt_nonneg ((a * a + 4 * a * c : Nat) : ℝ)
  have hcR : (0 : ℝ) < c := by exact_mod_cast hc
  have e : estimateBound sop L d k = ⌈((a : ℝ) + √((a * a + 4 * a * c : Nat) : ℝ)) / 2⌉₊ := rfl
  rw [e, Nat.ceil_le, ← Nat.cast_le (α := ℝ)]
  generalize √((a * a + 4 * a * c : Nat) : ℝ) = r at *
  push_cast at hsq ⊢
  have hB : (0 : ℝ) ≤ B := Nat.cast_nonneg _
  rcases Nat.eq_zero_or_pos a with ha | ha
  · rw [ha] at hsq ⊢
    simp only [Nat.cast_zero, mul_zero, zero_mul, add_zero, zero_add, pow_eq_zero_iff, ne_eq, OfNat.ofNat_ne_zero, not_false_eq_true] at hsq ⊢
    rw [hsq]
    constructor
    · intro _; positivity
    · intro _; simp
  · have haR : (0 : ℝ) < a := by exact_mod_cast ha
    constructor
    · intro h
      nlinarith
    · intro h
      by_contra hlt
      push Not at hlt
      have hra : (a : ℝ) < r := by nlinarith [mul_pos haR hcR]
      nlinarith [mul_pos haR hcR]

theorem getD_mem_or {α : Type} [Zero α] (l : List α) (i : Nat) : l.getD i 0 ∈ l ∨ l.getD i 0 = 0 := by
  by_cases h : i < l.length
  · left
    rw [List.getD_eq_getElem?_getD, List.getElem?_eq_getElem h, Option.getD_some]
    exact List.getElem_mem h
  · right
    simp [List.getD_eq_getElem?_getD, Nat.not_lt.1 h]

theorem bound_arith {γ d k B U n L : Nat} (hγ : 1 ≤ γ) (hd : 4 ≤ d) (hn : n ≤ L)
    (h : γ * d * U * L * (B + (d / 2 + d * k + 1)) ≤ B ^ 2) :
    2 * (n * (U * (d / 2 / 2 + γ + d * (γ * (B / 2)) + k * (d * γ)))) ≤ B ^ 2 := by
  have h1 : 2 * (d / 2 / 2) ≤ γ * d * (d / 2) := by
    calc 2 * (d / 2 / 2) ≤ 1 * (d / 2) := by omega
      _ ≤ γ * d * (d / 2) := Nat.mul_le_mul_right _ (Nat.mul_pos hγ (by omega))
  have h2 : 2 * γ ≤ γ * d := by rw [mul_comm]; exact Nat.mul_le_mul_left _ (by omega)
  have h3 : 2 * (d * (γ * (B / 2))) ≤ γ * d * B := by
    calc 2 * (d * (γ * (B / 2))) = γ * d * (2 * (B / 2)) := by ring
      _ ≤ γ * d * B := Nat.mul_le_mul_left _ (by omega)
  have h4 : 2 * (k * (d * γ)) ≤ γ * d * (d * k) := by
    calc 2 * (k * (d * γ)) = γ * d * (2 * k) := by ring
      _ ≤ γ * d * (d * k) := Nat.mul_le_mul_left _ (Nat.mul_le_mul_right _ (by omega))
  have h5 : 2 * (d / 2 / 2 + γ + d * (γ * (B / 2)) + k * (d * γ)) ≤ γ * d * (B + (d / 2 + d * k + 1)) := by
    have e : γ * d * (B + (d / 2 + d * k + 1)) = γ * d * B + γ * d * (d / 2) + γ * d * (d * k) + γ * d := by ring
    rw [e]
    omega
  calc 2 * (n * (U * (d / 2 / 2 + γ + d * (γ * (B / 2)) + k * (d * γ))))
      = n * (U * (2 * (d / 2 / 2 + γ + d * (γ * (B / 2)) + k * (d * γ)))) := by ring
    _ ≤ L * (U * (γ * d * (B + (d / 2 + d * k + 1)))) := Nat.mul_le_mul hn (Nat.mul_le_mul_left _ h5)
    _ = γ * d * U * L * (B + (d / 2 + d * k + 1)) := by ring
    _ ≤ B ^ 2 := h

/-- The witness has `n` entries with coefficients of absolute value at most `B / 2`. -/
def WitShort (pr : PlusRing F R d) (n B : Nat) (f : List R) : Prop := f.length = n ∧ ∀ x ∈ f, ∀ i, Short B (pr.coeff x i)

/-- **C72**: the norm of the folded witness of one fold. Multiplication by monomials increases the norm in the ring by a factor of at most `γ`
(`1` for `X^d = -1`). If `B` is at least the estimate for at most `L` instances and the witnesses are bounded by
`B / 2`, then the folded witness is bounded by `B^2 / 2`, whatever the challenges. -/
theorem C72_fold_norm (pr : PlusRing F R d) (T : Transcript F R σ) (s : σ) {A : Mat R} {n : Nat} {params : LinParams} {M : List (SpMat R)}
    (hp : MlinParams pr T A n params M) {γ L B : Nat} (hγ : Expands pr γ) (hγ1 : 1 ≤ γ)
    (hest : estimateBound (γ * d * (2 ^ (128 / d) / 2)) L d params.decomp.k ≤ B) (hBb : B ≤ params.decomp.b ^ params.decomp.k)
    (lins : List (LinB R)) (hw : ∀ l ∈ lins, WitShort pr n B l.f) (hcount : 2 ≤ params.decomp.k * lins.length) (hL : lins.length ≤ L)
    {lb : LinB2 R} {proof : CmProof F R} {s' : σ} (h : mlin pr T s params lins A M = .ok ((lb, proof), s')) :
    ∀ x ∈ lb.g, ∀ i, Short (B ^ 2) (pr.coeff x i) := by
  have hwit : ∀ l ∈ lins, WitOK pr n params l.f := fun l hl => ⟨(hw l hl).1, fun x hx i => short_mono ((hw l hl).2 x hx i) hBb⟩
  obtain ⟨lb', proof', s'', x, gs, k1, k2, -, -, -, -, k7, ⟨s0, s1, s2, sp, insts, hsc, -, hin, hgs⟩, -⟩ :=
    C63_mlin_partial pr T s hp lins hwit hcount
  rw [h] at k1
  simp only [Except.ok.injEq, Prod.mk.injEq] at k1
  obtain ⟨⟨rfl, rfl⟩, rfl⟩ := k1
  have hd : 4 ≤ d := by have := hp.b; have := hp.b2; omega
  have hest' := (C72_estimate _ _ _ _ _).1 hest
  have hlen : insts.length = lins.length := hin.length_eq.symm
  intro y hy i
  obtain ⟨j, hj, rfl⟩ := List.getElem_of_mem hy
  have e1 : lb.g[j] = lb.g.getD j 0 := by simp [List.getD_eq_getElem?_getD, hj]
  have hjn : j < n := by rw [k2.len] at hj; exact hj
  rw [e1, k7 j]
  have hnorm := normLe_listSum (pr := pr) (gs.map fun g => g.getD j 0)
    (2 ^ (128 / d) / 2 * (d / 2 / 2 + γ + d * (γ * (B / 2)) + params.decomp.k * (d * γ))) (by
      intro z hz
      obtain ⟨g, hg, rfl⟩ := List.mem_map.1 hz
      rw [hgs] at hg
      obtain ⟨inst, hi, rfl⟩ := List.mem_map.1 hg
      rw [getD_map_range _ _ hjn]
      obtain ⟨l, hl, hf⟩ := forall2_mem_right hin hi
      obtain ⟨hlw, hsh⟩ := hwit l hl
      obtain ⟨inst', q1, q2, q3, q4, -, q6⟩ := C55_from_f pr hp.wf (by rw [hp.cols, hlw]) hp.b hp.b2 hp.even hp.k hp.l hsh hp.digits
        (by rw [hlw]; exact hp.size)
      rw [hf] at q1
      simp only [Except.ok.injEq] at q1
      subst q1
      refine normLe_folded hγ hsc ?_ ?_ ?_ q3.count q3.mono
      · rcases getD_mem_or inst.tau j with h0 | h0
        · rw [← hp.b]
          exact absLe_of_short (q6 _ h0)
        · rw [h0]
          exact absLe_zero _
      · rcases getD_mem_or inst.mTau j with h0 | h0
        · exact q3.tauMono _ h0
        · rw [h0]
          exact .inl rfl
      · intro i
        rw [q2]
        rcases getD_mem_or l.f j with h0 | h0
        · exact absLe_of_short ((hw l hl).2 _ h0 i)
        · rw [h0, map_zero]
          exact absLe_zero _)
  refine short_of_absLe (hnorm i) ?_
  rw [List.length_map, hgs, List.length_map, hlen]
  exact bound_arith hγ1 hd hL hest'

/-- **C72**: with a bound `B` that is at least the estimate for `L` instances, completeness of the accumulation scheme over any number of calls, each with at most `L - 2`
satisfied committed R1CS with witnesses bounded by `B / 2`, without any assumption on the norm of the folded
witnesses: no call aborts, all proofs are accepted, and the accumulated witnesses stay bounded by `B / 2`. Besides,
the bound must be in the range of the `k` digits, `B ≤ b^k`. -/
theorem C72_complete (pr : PlusRing F R d) (T : Transcript F R σ) (s : σ) {A : Mat R} {n : Nat} {params : PlusParams} {M : List (SpMat R)}
    (hp : MlinParams pr T A n params.lin M) {γ L : Nat} (hγ : Expands pr γ) (hγ1 : 1 ≤ γ) (hB : 2 ≤ params.B) (hBe : Even params.B)
    (hest : estimateBound (γ * d * (2 ^ (128 / d) / 2)) L d params.lin.decomp.k ≤ params.B)
    (hBb : params.B ≤ params.lin.decomp.b ^ params.lin.decomp.k) (acc : List (LinB R)) (comps : List (List (ComR1CS R)))
    (hal : acc.length ≤ 2)
    (hacc : ∀ l ∈ acc, WitShort pr n params.B l.f ∧ LinValid A M (Nat.clog 2 n) n l.f l.x.cmF l.x.r l.x.v)
    (hcomp : ∀ comp ∈ comps, ∀ c ∈ comp, ComShape c ∧ R1CSHolds c.r1cs.A c.r1cs.B c.r1cs.C c.r1cs.A.nrows c.f ∧ c.cmF = commit A c.f ∧
      WitShort pr n params.B c.f)
    (hcount : ∀ comp ∈ comps, 2 ≤ params.lin.decomp.k * comp.length ∧ comp.length + 2 ≤ L) :
    ∃ proofs acc' s', plusProveAll pr T (fun s c => ComR1CS.linearize T s c) A M params comps acc s = .ok (proofs, acc', s') ∧
      proofs.length = comps.length ∧
      plusVerifyAll pr T (fun s p => ComR1CSProof.verify T s p) M params proofs s = .ok (List.replicate comps.length true, s') ∧
      ∀ l ∈ acc', WitShort pr n params.B l.f ∧ LinValid A M (Nat.clog 2 n) n l.f l.x.cmF l.x.r l.x.v := by
  induction comps generalizing acc s with
  | nil => exact ⟨[], acc, s, rfl, rfl, rfl, hacc⟩
  | cons comp comps ih =>
    have hcnt := hcount comp (by simp)
    have hok : ∀ c ∈ comp, CompOK pr A n params.lin c := by
      intro c hc
      obtain ⟨h1, h2, h3, h4⟩ := hcomp comp (by simp) c hc
      exact ⟨h1, h2, h3, h4.1, fun x hx i => short_mono (h4.2 x hx i) hBb⟩
    have hcnt2 : 2 ≤ params.lin.decomp.k * (acc.length + comp.length) :=
      le_trans hcnt.1 (Nat.mul_le_mul_left _ (by omega))
    have hn1 : StepNorm pr T A M params acc s comp := by
      intro lbs lps s1 lb cp s2 h1 h2
      obtain ⟨lbs', lps', s1', g1, -, g3⟩ := linearizeAll_ok T s (A := A) hp.char comp
        fun c hc => ⟨(hok c hc).shape, (hok c hc).rel, (hok c hc).cm⟩
      rw [h1] at g1
      simp only [Except.ok.injEq, Prod.mk.injEq] at g1
      obtain ⟨⟨rfl, rfl⟩, rfl⟩ := g1
      have hlen : lbs.length = comp.length := by simpa using congrArg List.length g3
      refine C72_fold_norm pr T s1 hp hγ hγ1 hest hBb (acc ++ lbs) ?_ (by rw [List.length_append, hlen]; exact hcnt2)
        (by rw [List.length_append, hlen]; omega) h2
      intro l hl
      rcases List.mem_append.1 hl with hl | hl
      · exact (hacc l hl).1
      · have : l.f ∈ comp.map (·.f) := by rw [← g3]; exact List.mem_map.2 ⟨l, hl, rfl⟩
        obtain ⟨c, hc, hcf⟩ := List.mem_map.1 this
        rw [← hcf]
        exact (hcomp comp (by simp) c hc).2.2.2
    obtain ⟨proof, l0, l1, s1, g1, g2, g3, -⟩ := plusStep pr T s hp hB hBe acc comp
      (fun l hl => ⟨(hacc l hl).1.1, fun x hx i => short_mono ((hacc l hl).1.2 x hx i) hBb⟩) hok hcnt2 hn1
    obtain ⟨proofs, acc', s', k1, k2, k3, k4⟩ := ih s1 [l0, l1] (by simp) (by
        intro l hl
        obtain ⟨e1, -, e3⟩ := g3 l hl
        exact ⟨⟨e3.len, e1⟩, e3⟩) (fun c hc => hcomp c (by simp [hc])) (fun c hc => hcount c (by simp [hc]))
    refine ⟨proof :: proofs, acc', s', ?_, by simp [k2], ?_, k4⟩
    · unfold plusProveAll
      rw [g1]
      simp only [bind_ok']
      rw [k1]
      simp only [bind_ok']
    · unfold plusVerifyAll
      rw [g2]
      simp only [bind_ok']
      rw [k3]
      simp only [bind_ok']
      rfl

/-! The example: `F_p[X] / (X^16 + 1)` with `p = 2^64 - 2^32 + 1`, three instances, five digits to base eight. -/

/-- The ring of the example. -/
abbrev RM := Example.Cyclo 18446744069414584321 16

noncomputable instance : DecidableEq RM := Classical.decEq _

/-- The ring of the example with its contracts. -/
noncomputable abbrev prM : PlusRing (ZMod 18446744069414584321) RM 16 := Example.cyclo 18446744069414584321 16 (by norm_num)

theorem expandsM : Expands prM 1 := expands_of_negacyclic prM (Example.rootC_pow _ _)

theorem estimateM : estimateBound (1 * 16 * (2 ^ (128 / 16) / 2)) 3 16 5 = 6232 := by
  apply le_antisymm
  · rw [C72_estimate]
    norm_num
  · by_contra h
    have : estimateBound (1 * 16 * (2 ^ (128 / 16) / 2)) 3 16 5 ≤ 6231 := by omega
    rw [C72_estimate] at this
    norm_num at this

/-- Five digits to base eight, 22 digits for the commitments, decomposition to base 6232. -/
def paramsM : PlusParams := ⟨⟨1, ⟨8, 5, 22⟩⟩, 6232⟩

/-- A commitment matrix with one row. -/
noncomputable def AM : Mat RM := ⟨1, 32768, [List.replicate 32768 1]⟩

/-- The first coordinate. -/
noncomputable def firstM : SpMat RM := ⟨1, 32768, [[(1, 0)]]⟩

/-- The vector `1, 0, 0, ..`. -/
noncomputable def vecM : List RM := 1 :: List.replicate 32767 0

theorem vecM_length : vecM.length = 32768 := by
  unfold vecM
  rw [List.length_cons, List.length_replicate]

theorem clogM : Nat.clog 2 32768 = 15 := by
  rw [show 32768 = 2 ^ 15 by norm_num, Nat.clog_pow 2 15 (by norm_num)]

theorem AM_wf : AM.WF := by
  refine ⟨rfl, ?_⟩
  intro r hr
  simp only [AM, List.mem_cons, List.not_mem_nil, or_false] at hr
  rw [hr, List.length_replicate]
  rfl

theorem firstM_wf : firstM.WF := by
  refine ⟨rfl, ?_⟩
  intro row hr t ht
  simp only [firstM, List.mem_cons, List.not_mem_nil, or_false] at hr
  subst hr
  simp only [List.mem_cons, List.not_mem_nil, or_false] at ht
  subst ht
  change 0 < 32768
  norm_num

theorem shortM (a : ZMod 18446744069414584321) : Short (8 ^ 22) a := by
  rw [Example.shortZ]
  have := ZMod.natAbs_valMinAbs_le a
  norm_num
  omega

theorem charM : CharGt (ZMod 18446744069414584321) 3 := by
  intro m h1 h2
  interval_cases m <;> decide

theorem mlinM (T : Transcript (ZMod 18446744069414584321) RM σ) (hT : BytesOK T) : MlinParams prM T AM 32768 paramsM.lin [firstM] where
  bytes := hT
  n2 := by norm_num
  char := charM
  wf := AM_wf
  cols := rfl
  kappa := rfl
  b := rfl
  b2 := by norm_num [paramsM]
  even := ⟨4, rfl⟩
  k := by norm_num [paramsM]
  l := by norm_num [paramsM]
  digits := shortM
  mats := by
    intro m hm
    obtain rfl := List.mem_singleton.1 hm
    refine ⟨firstM_wf, rfl, Nat.one_le_two_pow, ?_⟩
    intro row hr t ht
    simp only [firstM, List.mem_cons, List.not_mem_nil, or_false] at hr
    subst hr
    simp only [List.mem_cons, List.not_mem_nil, or_false] at ht
    subst ht
    exact ⟨1, by simp⟩
  pow := fun _ => by rw [clogM]; norm_num
  size := by norm_num [AM, paramsM]
  size2 := by norm_num [AM, paramsM]

theorem witM : WitShort prM 32768 6232 vecM := by
  refine ⟨vecM_length, ?_⟩
  intro x hx i
  simp only [vecM, List.mem_cons, List.mem_replicate] at hx
  rcases hx with rfl | ⟨-, rfl⟩
  · have : (1 : RM) = prM.X ^ ((⟨0, by norm_num⟩ : Fin 16) : Nat) := (pow_zero _).symm
    rw [this, prM.coeff_X, Pi.single_apply]
    split_ifs
    · exact ⟨1, by norm_num, by norm_num⟩
    · exact ⟨0, by norm_num, by norm_num⟩
  · rw [map_zero]
    exact ⟨0, by norm_num, by norm_num⟩

/-- The R1CS `x_0^2 = x_0`. -/
noncomputable def comM : ComR1CS RM := ⟨⟨0, firstM, firstM, firstM⟩, [], commit AM vecM, 0, vecM⟩

theorem comM_ok : ComShape comM ∧ R1CSHolds comM.r1cs.A comM.r1cs.B comM.r1cs.C comM.r1cs.A.nrows comM.f ∧ comM.cmF = commit AM comM.f ∧
    WitShort prM 32768 6232 comM.f := by
  refine ⟨⟨⟨firstM_wf, firstM_wf, firstM_wf, rfl, rfl, rfl, rfl⟩, vecM_length.symm, Nat.one_le_two_pow, ?_⟩, ?_, rfl, witM⟩
  · change 2 ≤ vecM.length
    rw [vecM_length]
    norm_num
  · intro i hi
    change i < 1 at hi
    obtain rfl : i = 0 := by omega
    change mulVec firstM vecM 0 * mulVec firstM vecM 0 = mulVec firstM vecM 0
    have : mulVec firstM vecM 0 = 1 := by
      unfold mulVec
      rw [sum_eq_single 0]
      · have e1 : entry firstM 0 0 = 1 := by simp [entry, firstM]
        have e2 : vecM.getD 0 0 = 1 := rfl
        rw [e1, e2, one_mul]
      · intro j _ hj
        have : entry firstM 0 j = 0 := by simp [entry, firstM, Ne.symm hj]
        rw [this, zero_mul]
      · intro h
        exact absurd (mem_range.2 (by change 0 < 32768; norm_num)) h
    rw [this, one_mul]

/-- Any number of calls with one computation each: the bound is the estimate for three instances. -/
example (T : Transcript (ZMod 18446744069414584321) RM σ) (hT : BytesOK T) (s : σ) (N : Nat) : ∃ proofs acc' s',
    plusProveAll prM T (fun s c => ComR1CS.linearize T s c) AM [firstM] paramsM (List.replicate N [comM]) [] s = .ok (proofs, acc', s') ∧
    plusVerifyAll prM T (fun s p => ComR1CSProof.verify T s p) [firstM] paramsM proofs s = .ok (List.replicate N true, s') := by
  obtain ⟨proofs, acc', s', h1, -, h2, -⟩ := C72_complete prM T s (mlinM T hT) (L := 3) expandsM le_rfl (by norm_num [paramsM]) ⟨3116, rfl⟩
    (le_of_eq estimateM) (by norm_num [paramsM]) [] (List.replicate N [comM]) (by simp) (by simp) (by
      intro comp hcomp c hc
      obtain rfl := List.eq_of_mem_replicate hcomp
      obtain rfl := List.mem_singleton.1 hc
      exact comM_ok) (by
      intro comp hcomp
      obtain rfl := List.eq_of_mem_replicate hcomp
      norm_num [paramsM])
  rw [List.length_replicate] at h2
  exact ⟨proofs, acc', s', h1, h2⟩

end Verif.Props
