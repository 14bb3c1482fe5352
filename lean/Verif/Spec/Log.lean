import Verif.Model.Nifs
import Mathlib.Data.Nat.Digits.Defs

/-!
# Recording transcripts

A transcript that records everything absorbed and everything squeezed, and answers every request by an arbitrary
function of the complete record so far (an arbitrary oracle), together with the records the protocols should leave.
-/

namespace Verif.Spec

open Verif

/-- One call of the transcript: an absorbed ring element, a squeezed field challenge, squeezed bytes. -/
inductive Event (F R : Type) where
  | absorb (x : R)
  | squeeze (r : F)
  | bytes (n : Nat) (bs : List UInt8)

/-- Answers as a function of the record. -/
structure Oracle (F R : Type) where
  chal : List (Event F R) → F
  byt : List (Event F R) → Nat → List UInt8

/-- Every challenge in the record is the oracle's answer on everything recorded before it. -/
def Honest {F R : Type} (o : Oracle F R) (l : List (Event F R)) : Prop :=
  (∀ l1 r l2, l = l1 ++ .squeeze r :: l2 → r = o.chal l1) ∧
  ∀ l1 n bs l2, l = l1 ++ .bytes n bs :: l2 → bs = o.byt l1 n

theorem snoc_eq {α : Type} {s l1 l2 : List α} {e x : α} (h : s ++ [e] = l1 ++ x :: l2) :
    (l2 = [] ∧ l1 = s ∧ e = x) ∨ ∃ l2', s = l1 ++ x :: l2' := by
  rcases List.eq_nil_or_concat l2 with rfl | ⟨l2', y, rfl⟩
  · obtain ⟨h1, h2⟩ := List.append_inj' h rfl
    simp only [List.cons.injEq, and_true] at h2
    exact Or.inl ⟨rfl, h1.symm, h2⟩
  · right
    refine ⟨l2', ?_⟩
    have : s ++ [e] = (l1 ++ x :: l2') ++ [y] := by simpa using h
    exact (List.append_inj' this rfl).1

theorem Honest.snoc {F R : Type} {o : Oracle F R} {l : List (Event F R)} (h : Honest o l) (e : Event F R)
    (h1 : ∀ r, e = .squeeze r → r = o.chal l) (h2 : ∀ n bs, e = .bytes n bs → bs = o.byt l n) : Honest o (l ++ [e]) := by
  constructor
  · intro l1 r l2 he
    rcases snoc_eq he with ⟨-, rfl, rfl⟩ | ⟨l2', rfl⟩
    · exact h1 r rfl
    · exact h.1 l1 r l2' rfl
  · intro l1 n bs l2 he
    rcases snoc_eq he with ⟨-, rfl, rfl⟩ | ⟨l2', rfl⟩
    · exact h2 n bs rfl
    · exact h.2 l1 n bs l2' rfl

/-- The recording transcript of an oracle; its states are honest records. -/
def recT {F R : Type} (o : Oracle F R) : Transcript F R {l : List (Event F R) // Honest o l} where
  absorb s x := ⟨s.1 ++ [.absorb x], s.2.snoc _ (by simp) (by simp)⟩
  challenge s := (o.chal s.1, ⟨s.1 ++ [.squeeze (o.chal s.1)], s.2.snoc _ (by simp) (by simp)⟩)
  bytes s n := (o.byt s.1 n, ⟨s.1 ++ [.bytes n (o.byt s.1 n)], s.2.snoc _ (by simp) (by rintro _ _ ⟨rfl, rfl⟩; rfl)⟩)

/-! ## The expected records -/

section
variable {F R : Type}

/-- Elements sent one after the other. -/
def sent (v : List R) : List (Event F R) := v.map .absorb

variable [Field F] [CommRing R] [Algebra F R]

/-- An ASCII label read as a big-endian number. -/
def labelValue (str : String) : Nat := Nat.ofDigits 256 (str.toList.reverse.map Char.toNat)

/-- Domain separation label. -/
def labelEv (str : String) : Event F R := .absorb (algebraMap F R (labelValue str : F))

/-- A label followed by challenges. -/
def drawn (str : String) (cs : List F) : List (Event F R) := labelEv str :: cs.map .squeeze

/-- Rounds of a sum-check: message, challenge, challenge absorbed. -/
def roundsLog (ms : List (List R)) (point : List F) : List (Event F R) :=
  (List.zipWith (fun m r => sent m ++ [.squeeze r, .absorb (algebraMap F R r)]) ms point).flatten

/-- A sum-check: number of variables, degree, rounds. -/
def sumcheckLog (n d : Nat) (ms : List (List R)) (point : List F) : List (Event F R) :=
  sent [(n : R), (d : R)] ++ roundsLog ms point

/-- The public input of the folding scheme. -/
def publicEv (acc : LCCCS R) (cm : CCCS R) : List (Event F R) :=
  [labelEv "acc"] ++ sent acc.r ++ sent acc.v ++ sent acc.cm.val ++ sent acc.u ++ sent acc.x_w ++ sent [acc.h]
    ++ [labelEv "cm_i"] ++ sent cm.cm.val ++ sent cm.x_ccs

/-- Linearization. -/
def linLog (ccs : CCS R) (proof : LinProof R) (beta point : List F) : List (Event F R) :=
  drawn "beta_s" beta ++ sumcheckLog ccs.s (ccs.d + 1) proof.sumcheck point ++ sent proof.v ++ sent proof.u

/-- Decomposition: for every piece its public part, commitment, `u` and `v`. -/
def decLog (proof : DecProof R) : List (Event F R) :=
  ((((proof.xS.zip proof.yS).zip proof.uS).zip proof.vS).map fun p =>
    sent p.1.1.1 ++ sent p.1.1.2.val ++ sent p.1.2 ++ sent p.2).flatten

/-- Folding. -/
def foldLog (P : Params) (nb : Nat) (ccs : CCS R) (proof : FoldProof R) (al ze mu be point : List F)
    (bss : List (List UInt8)) : List (Event F R) :=
  drawn "alpha_s" al ++ drawn "zeta_s" ze ++ drawn "mu_s" mu ++ drawn "beta_s" be
    ++ sumcheckLog ccs.s (2 * P.bSmall) proof.sumcheck point ++ sent proof.thetaS.flatten ++ sent proof.etaS.flatten
    ++ [labelEv "rho_s"] ++ bss.map (.bytes nb)

end

/-! ## Shapes: all list lengths -/

section
variable {R : Type}

/-- Lengths of an accumulator. -/
def accShape (a : LCCCS R) : List Nat := [a.r.length, a.v.length, a.cm.val.length, a.u.length, a.x_w.length]

/-- Lengths of a committed instance. -/
def cmShape (c : CCCS R) : List Nat := [c.cm.val.length, c.x_ccs.length]

/-- Lengths of a linearization proof. -/
def linShape (p : LinProof R) : List Nat × List Nat := (p.sumcheck.map List.length, [p.v.length, p.u.length])

/-- Lengths of a decomposition proof. -/
def decShape (p : DecProof R) : List (List Nat) :=
  [p.xS.map List.length, p.yS.map (fun c => c.val.length), p.uS.map List.length, p.vS.map List.length]

/-- A decomposition proof with `k` pieces. -/
def DecPieces (k : Nat) (p : DecProof R) : Prop :=
  p.xS.length = k ∧ p.yS.length = k ∧ p.uS.length = k ∧ p.vS.length = k

/-- Lengths of a folding proof. -/
def foldShape (p : FoldProof R) : List (List Nat) :=
  [p.sumcheck.map List.length, p.thetaS.map List.length, p.etaS.map List.length]

/-- Lengths of a proof of the scheme. -/
def proofShape (p : LFProof R) : (List Nat × List Nat) × List (List Nat) × List (List Nat) × List (List Nat) :=
  (linShape p.lin, decShape p.decL, decShape p.decR, foldShape p.fold)

end

end Verif.Spec
