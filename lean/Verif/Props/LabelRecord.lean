import Verif.Lemmas.Log
import Verif.Props.PoseidonBytes

set_option linter.unusedSimpArgs false
set_option linter.unusedSectionVars false

/-! # Property C79 (labels separate the challenges): what the helpers of `latticefold-plus` record. -/

namespace Verif.Props
open Verif Verif.Poseidon Spec Finset

section
variable {F R : Type} [Field F] [CommRing R] [Algebra F R] {p : Nat}

/-- **C79**, record: `squeeze_challenges` and `squeeze_rchallenges` absorb the label, read as a big-endian number modulo the
prime, and then draw `n` challenges; each depends on everything before it, the label included, and the transcript
that is left contains all of them. -/
theorem C79_squeeze_record (o : Oracle F R) (fromPrime : ZMod p → F) (s : {l : List (Event F R) // Honest o l})
    (name : List UInt8) (n : Nat) :
    ∃ cs : List F, cs.length = n ∧
      (squeezeChallenges (recT o) fromPrime s name n).1 = cs ∧
      (squeezeRChallenges (recT o) fromPrime s name n).1 = cs.map (algebraMap F R) ∧
      (∀ i (hi : i < cs.length), cs[i] = o.chal (s.1 ++
        .absorb (algebraMap F R (fromPrime (Nat.ofDigits 256 (name.reverse.map UInt8.toNat) : Nat)))
          :: (cs.take i).map .squeeze)) ∧
      (squeezeChallenges (recT o) fromPrime s name n).2.1 = s.1 ++
        .absorb (algebraMap F R (fromPrime (Nat.ofDigits 256 (name.reverse.map UInt8.toNat) : Nat))) :: cs.map .squeeze ∧
      (squeezeRChallenges (recT o) fromPrime s name n).2.1 = s.1 ++
        .absorb (algebraMap F R (fromPrime (Nat.ofDigits 256 (name.reverse.map UInt8.toNat) : Nat))) :: cs.map .squeeze := by
  have hlab : fromBeBytes p name = ((Nat.ofDigits 256 (name.reverse.map UInt8.toNat) : Nat) : ZMod p) := by
    unfold fromBeBytes
    rw [fromBe_digits, mul_zero, add_zero]
  have hlen : ∀ (n : Nat) (t : {l : List (Event F R) // Honest o l}), ((recT o).challenges n t).1.length = n := by
    intro n
    induction n with
    | zero => intro t; simp [Transcript.challenges]
    | succ n ih => intro t; simp [Transcript.challenges, ih]
  have hrec : (squeezeChallenges (recT o) fromPrime s name n).2.1 = s.1 ++
      .absorb (algebraMap F R (fromPrime (Nat.ofDigits 256 (name.reverse.map UInt8.toNat) : Nat)))
        :: (squeezeChallenges (recT o) fromPrime s name n).1.map .squeeze := by
    unfold squeezeChallenges
    rw [recT_challenges, hlab]
    simp [Transcript.absorbField, recT]
  refine ⟨(squeezeChallenges (recT o) fromPrime s name n).1, ?_, rfl, rfl, ?_, hrec, hrec⟩
  · exact hlen _ _
  · intro i hi
    have hh := (squeezeChallenges (recT o) fromPrime s name n).2.2.1
    rw [hrec] at hh
    refine hh _ _ (((squeezeChallenges (recT o) fromPrime s name n).1.drop (i + 1)).map .squeeze) ?_
    generalize (squeezeChallenges (recT o) fromPrime s name n).1 = cs at hi
    conv_lhs => rw [← List.take_append_drop i cs, List.drop_eq_getElem_cons hi, List.map_append, List.map_cons]
    rw [List.append_assoc, List.cons_append]

/-- Two challenges with the label `"r"`, on an empty transcript whose answers are the lengths of the record. -/
example : (squeezeRChallenges (F := ℚ) (R := ℚ) (recT ⟨fun l => (l.length : ℚ), fun _ _ => []⟩)
    (fun x : ZMod 101 => (x.val : ℚ)) ⟨[], by simp [Honest], by simp [Honest]⟩ [114] 2).2.1
    = [.absorb 13, .squeeze 1, .squeeze 2] := by
  obtain ⟨cs, h1, _, _, h2, _, h3⟩ := C79_squeeze_record (F := ℚ) (R := ℚ) ⟨fun l => (l.length : ℚ), fun _ _ => []⟩
    (fun x : ZMod 101 => (x.val : ℚ)) ⟨[], by simp [Honest], by simp [Honest]⟩ [114] 2
  have e0 := h2 0 (by omega)
  have e1 := h2 1 (by omega)
  rw [h3]
  obtain ⟨a, b, rfl⟩ := List.length_eq_two.1 h1
  simp only [List.length_append, List.length_cons, List.length_map, List.length_take, List.length_nil,
    List.getElem_cons_zero, List.getElem_cons_succ] at e0 e1
  norm_num at e0 e1
  subst e0 e1
  have : (((Nat.ofDigits 256 (([114] : List UInt8).reverse.map UInt8.toNat) : Nat) : ZMod 101).val) = 13 := by decide
  simp only [this]
  rfl

end

end Verif.Props
