import Verif.Props.PlusParams

/-!
# Property theorems: the accumulator in successive steps of `latticefold-plus` (C111)
-/

set_option linter.unusedSectionVars false
set_option linter.unusedSimpArgs false

namespace Verif.Props

open Finset Verif Verif.Spec Verif.Plus

variable {F R σ : Type} {d : Nat}
variable [Field F] [CommRing R] [Algebra F R] [DecidableEq F] [DecidableEq R]

/-- The commitments folded in the step of `q` begin with the two halves that the step of `p` left behind. -/
def Linked {P : Type} (p q : PlusProof F R P) : Prop :=
  ∃ rest, q.cmproof.dcom.fcoms.map (·.cmF) = p.dproof.C.1 :: p.dproof.C.2 :: rest

/-- Successive proofs are linked. -/
def LinkedAll {P : Type} : List (PlusProof F R P) → Prop
  | p :: q :: ps => Linked p q ∧ LinkedAll (q :: ps)
  | _ => True

/-- What a successful call of `prove` folds, and which halves are in its proof. -/
theorem plusProve_coms (pr : PlusRing F R d) (T : Transcript F R σ) (s : σ) {A : Mat R} {n : Nat} {params : PlusParams} {M : List (SpMat R)}
    (hp : MlinParams pr T A n params.lin M) (acc : List (LinB R)) (comp : List (ComR1CS R)) (hacc : ∀ l ∈ acc, WitOK pr n params.lin l.f)
    (hcomp : ∀ c ∈ comp, CompOK pr A n params.lin c) (hcount : 2 ≤ params.lin.decomp.k * (acc.length + comp.length))
    {proof : PlusProof F R (ComR1CSProof R)} {acc' : List (LinB R)} {s' : σ}
    (h : plusProve pr T (fun s c => ComR1CS.linearize T s c) A M params acc s comp = .ok (proof, acc', s')) :
    proof.cmproof.dcom.fcoms.map (·.cmF) = (acc.map fun l => commit A l.f) ++ comp.map (fun c => commit A c.f) ∧
      ∃ l0 l1, acc' = [l0, l1] ∧ proof.dproof.C = (l0.x.cmF, l1.x.cmF) := by
  obtain ⟨lbs, lps, s1, h1, -, h3⟩ := linearizeAll_ok T s (A := A) hp.char comp
    fun c hc => ⟨(hcomp c hc).shape, (hcomp c hc).rel, (hcomp c hc).cm⟩
  have hlen : lbs.length = comp.length := by simpa using congrArg List.length h3
  have hwit : ∀ l ∈ acc ++ lbs, WitOK pr n params.lin l.f := by
    intro l hl
    rcases List.mem_append.1 hl with hl | hl
    · exact hacc l hl
    · have : l.f ∈ comp.map (·.f) := by rw [← h3]; exact List.mem_map.2 ⟨l, hl, rfl⟩
      obtain ⟨c, hc, hcf⟩ := List.mem_map.1 this
      rw [← hcf]
      exact (hcomp c hc).wit
  obtain ⟨lb, cp, s2, x, gs, k1, -, -, -, -, -, -, -, k8⟩ := C63_mlin_partial pr T s1 hp (acc ++ lbs) hwit (by rw [List.length_append, hlen]; exact hcount)
  unfold plusProve at h
  rw [h1] at h
  simp only [bind_ok'] at h
  rw [k1] at h
  simp only [bind_ok'] at h
  obtain ⟨⟨⟨l0, l1⟩, dp⟩, hd, h⟩ := bind_eq_ok.1 h
  simp only [Except.ok.injEq, Prod.mk.injEq] at h
  obtain ⟨rfl, rfl, rfl⟩ := h
  refine ⟨?_, l0, l1, rfl, ?_⟩
  · have e : (lbs.map fun l => commit A l.f) = comp.map fun c => commit A c.f := by
      have := congrArg (List.map (commit A)) h3
      simpa [List.map_map, Function.comp_def] using this
    simp only
    rw [k8, List.map_append, e]
  · unfold decompose at hd
    simp only [bind_eq_ok] at hd
    obtain ⟨_, -, _, -, _, -, _, -, _, -, _, -, _, -, hd⟩ := hd
    simp only [Except.ok.injEq, Prod.mk.injEq] at hd
    obtain ⟨⟨rfl, rfl⟩, rfl⟩ := hd
    rfl

/-- **C111** (partial): if the prover keeps to `PlusProver::prove`, every step folds the accumulator of the step before it. -/
theorem C111_honest_partial (pr : PlusRing F R d) (T : Transcript F R σ) (s : σ) {A : Mat R} {n : Nat} {params : PlusParams} {M : List (SpMat R)}
    (hp : MlinParams pr T A n params.lin M) (hB : 2 ≤ params.B) (hBe : Even params.B)
    (hBb : params.B ≤ params.lin.decomp.b ^ params.lin.decomp.k) (acc : List (LinB R)) (comps : List (List (ComR1CS R)))
    (hacc : ∀ l ∈ acc, WitOK pr n params.lin l.f)
    (hcomp : ∀ comp ∈ comps, ∀ c ∈ comp, CompOK pr A n params.lin c)
    (hcount : ∀ comp ∈ comps, 2 ≤ params.lin.decomp.k * comp.length) (hnorm : NormRun pr T A M params comps acc s) :
    ∃ proofs acc' s', plusProveAll pr T (fun s c => ComR1CS.linearize T s c) A M params comps acc s = .ok (proofs, acc', s') ∧
      proofs.length = comps.length ∧ LinkedAll proofs ∧
      ∀ p ps, proofs = p :: ps → ∃ rest, p.cmproof.dcom.fcoms.map (·.cmF) = (acc.map fun l => commit A l.f) ++ rest := by
  induction comps generalizing acc s with
  | nil => exact ⟨[], acc, s, rfl, rfl, trivial, by simp⟩
  | cons comp comps ih =>
    obtain ⟨hn1, hn2⟩ := hnorm
    have hc2 : 2 ≤ params.lin.decomp.k * (acc.length + comp.length) :=
      le_trans (hcount comp (by simp)) (Nat.mul_le_mul_left _ (by omega))
    obtain ⟨proof, l0, l1, s1, g1, g2, g3, -⟩ := plusStep pr T s hp hB hBe acc comp hacc (hcomp comp (by simp)) hc2 hn1
    obtain ⟨e1, m0, m1, e2, e3⟩ := plusProve_coms pr T s hp acc comp hacc (hcomp comp (by simp)) hc2 g1
    simp only [List.cons.injEq, and_true] at e2
    obtain ⟨rfl, rfl⟩ := e2
    obtain ⟨proofs, acc', s', k1, k2, k3, k4⟩ := ih s1 [l0, l1] (by
        intro l hl
        obtain ⟨e1, -, e3⟩ := g3 l hl
        exact ⟨e3.len, fun x hx i => short_mono (e1 x hx i) hBb⟩) (fun c hc => hcomp c (by simp [hc])) (fun c hc => hcount c (by simp [hc]))
      (hn2 _ _ _ g1)
    refine ⟨proof :: proofs, acc', s', ?_, by simp [k2], ?_, ?_⟩
    · unfold plusProveAll
      rw [g1]
      simp only [bind_ok']
      rw [k1]
      simp only [bind_ok']
    · cases proofs with
      | nil => trivial
      | cons q qs =>
        refine ⟨?_, k3⟩
        obtain ⟨rest, hr⟩ := k4 q qs rfl
        refine ⟨rest, ?_⟩
        rw [hr, e3, (g3 l0 (by simp)).2.2.cm, (g3 l1 (by simp)).2.2.cm]
        rfl
    · intro p ps hpp
      simp only [List.cons.injEq] at hpp
      obtain ⟨rfl, -⟩ := hpp
      exact ⟨_, e1⟩

/-- **C111** is false: a step for an arbitrary instance `linb2x` is accepted; then the prover begins again with an empty accumulator, the verifier accepts
this step as well, and the final accumulator is true. The second step folds only the commitments of its own computations. -/
theorem C111_bad_step_forgotten (pr : PlusRing F R d) (T : Transcript F R σ) (s : σ) {A : Mat R} {n : Nat} {params : PlusParams} {M : List (SpMat R)}
    (hp : MlinParams pr T A n params.lin M) (hB : 2 ≤ params.B) (hBe : Even params.B) (comp : List (ComR1CS R))
    (hcomp : ∀ c ∈ comp, CompOK pr A n params.lin c) (hcount : 2 ≤ params.lin.decomp.k * comp.length)
    (hnorm : ∀ s, StepNorm pr T A M params [] s comp) (hd : 3 ≤ d) (hT : BytesOK T) (linb2x : LinB2X R) :
    ∃ p q l0 l1 s1 s2, plusVerifyAll pr T (fun s p => ComR1CSProof.verify T s p) M params [p, q] s = .ok ([true, true], s2) ∧
      p.linb2x = linb2x ∧ addMul (params.B : R) p.dproof.C.1 p.dproof.C.2 = linb2x.cmG ∧
      plusProve pr T (fun s c => ComR1CS.linearize T s c) A M params [] s1 comp = .ok (q, [l0, l1], s2) ∧
      (∀ l ∈ [l0, l1], (∀ x ∈ l.f, ∀ i, Short params.B (pr.coeff x i)) ∧ LinValid A M (Nat.clog 2 n) n l.f l.x.cmF l.x.r l.x.v) ∧
      q.cmproof.dcom.fcoms.map (·.cmF) = comp.map fun c => commit A c.f := by
  obtain ⟨p, s1, h1, h2, -, -⟩ := C66_any_instance_accepted pr T s M params hd hT hp.char linb2x [] (by simp) [⟨[], [], []⟩] (by simp) 0 (by simp)
  have hc2 : 2 ≤ params.lin.decomp.k * (([] : List (LinB R)).length + comp.length) := by simpa using hcount
  obtain ⟨q, l0, l1, s2, g1, g2, g3, -⟩ := plusStep pr T s1 hp hB hBe [] comp (by simp) hcomp hc2 (hnorm s1)
  have e := (plusProve_coms pr T s1 hp [] comp (by simp) hcomp hc2 g1).1
  refine ⟨p, q, l0, l1, s1, s2, ?_, h2, ?_, g1, fun l hl => ⟨(g3 l hl).1, (g3 l hl).2.2⟩, by simpa using e⟩
  · unfold plusVerifyAll plusVerifyAll plusVerifyAll
    rw [h1]
    simp only [bind_ok']
    rw [g2]
    simp only [bind_ok']
  · rw [← h2]
    exact (C110_base_partial pr T _ s M params p true s1 h1).1

/-- No two vectors have the commitments of an instance with the wrong number of entries as halves. -/
theorem no_opening {A : Mat R} {M : List (SpMat R)} {nv n : Nat} {B : R} {f0 f1 : List R} {c0 c1 : List R} {r v0 v1 : List (R × R)}
    (h0 : LinValid A M nv n f0 c0 r v0) (h1 : LinValid A M nv n f1 c1 r v1) : (addMul B c0 c1).length = (commit A f0).length := by
  rw [h0.cm, h1.cm, ← commit_addMul A _ (by rw [h0.len, h1.len])]
  simp [commit]

/-- **C111**, the witness: after two accepted proofs the final accumulator is true, although the halves left by the first step are openings of nothing, and the second
proof is not linked to the first. -/
theorem C111_witness (T : Transcript (ZMod 17) Example.R17 σ) (hT : BytesOK T) (s : σ) : ∃ (p q : PlusProof (ZMod 17) Example.R17 (ComR1CSProof Example.R17))
    (l0 l1 : LinB Example.R17) (s2 : σ),
    plusVerifyAll Example.plus17 T (fun s p => ComR1CSProof.verify T s p) [id256, id256, id256] params256 [p, q] s = .ok ([true, true], s2) ∧
    (∀ l ∈ [l0, l1], LinValid A256 [id256, id256, id256] 8 256 l.f l.x.cmF l.x.r l.x.v) ∧ q.dproof.C = (l0.x.cmF, l1.x.cmF) ∧
    (¬ ∃ f0 f1 r v0 v1, LinValid A256 [id256, id256, id256] 8 256 f0 p.dproof.C.1 r v0 ∧ LinValid A256 [id256, id256, id256] 8 256 f1 p.dproof.C.2 r v1) ∧
    ¬ Linked p q := by
  have hcomp : ∀ c ∈ [com256], CompOK Example.plus17 A256 256 params256.lin c := by
    intro c hc
    obtain rfl := List.mem_singleton.1 hc
    exact com256_ok
  obtain ⟨p, q, l0, l1, s1, s2, h1, -, h3, h4, h5, h6⟩ := C111_bad_step_forgotten Example.plus17 T s (mlin256 T hT) (by decide) (by decide)
    [com256] hcomp (by decide) (fun s => (norm256 T s [[com256]] []).1) (by decide) hT ⟨[1, 2, 3], [], []⟩
  obtain ⟨-, m0, m1, e1, e2⟩ := plusProve_coms Example.plus17 T s1 (mlin256 T hT) [] [com256] (by simp) hcomp (by decide) h4
  simp only [List.cons.injEq, and_true] at e1
  obtain ⟨rfl, rfl⟩ := e1
  refine ⟨p, q, l0, l1, s2, h1, fun l hl => ?_, e2, ?_, ?_⟩
  · have := (h5 l hl).2
    rwa [show Nat.clog 2 256 = 8 by decide] at this
  · rintro ⟨f0, f1, r, v0, v1, k0, k1⟩
    have := no_opening (B := ((params256.B : Nat) : Example.R17)) k0 k1
    rw [h3] at this
    simp [commit, A256] at this
  · rintro ⟨rest, hr⟩
    rw [h6] at hr
    simp at hr

/-- An honest run of three steps. -/
example (T : Transcript (ZMod 17) Example.R17 σ) (hT : BytesOK T) (s : σ) : ∃ proofs acc' s',
    plusProveAll Example.plus17 T (fun s c => ComR1CS.linearize T s c) A256 [id256, id256, id256] params256 [[com256], [com256], [com256]] [] s
      = .ok (proofs, acc', s') ∧ proofs.length = 3 ∧ LinkedAll proofs := by
  obtain ⟨proofs, acc', s', h1, h2, h3, -⟩ := C111_honest_partial Example.plus17 T s (mlin256 T hT) (by decide) (by decide) (by decide) []
    [[com256], [com256], [com256]] (by simp) (by
      intro comp hcomp c hc
      simp only [List.mem_cons, List.not_mem_nil, or_false, or_self] at hcomp
      subst hcomp
      obtain rfl := List.mem_singleton.1 hc
      exact com256_ok) (by
      intro comp hcomp
      simp only [List.mem_cons, List.not_mem_nil, or_false, or_self] at hcomp
      subst hcomp
      decide) (norm256 T s _ _)
  exact ⟨proofs, acc', s', h1, h2, h3⟩

end Verif.Props
