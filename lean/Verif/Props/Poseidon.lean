import Verif.Lemmas.PoseidonCheck
import Verif.Spec.PlusCm
import Mathlib.Algebra.Group.Equiv.Basic

/-!
# Property theorems: Poseidon configurations and transcripts (C74 - C78)
-/

set_option linter.unusedSectionVars false
set_option linter.unusedSimpArgs false

namespace Verif.Props

open Finset Verif Verif.Spec Verif.Poseidon

/-- The four configurations: constructor result, and configuration. -/
inductive RingConfig : (p : Nat) → Res (PoseidonConfig (ZMod p)) → PoseidonConfig (ZMod p) → Prop
  | goldilocks : RingConfig pGoldilocks goldilocksConfig (cfg64 pGoldilocks)
  | babybear : RingConfig pBabyBear babybearConfig (cfg64 pBabyBear)
  | frog : RingConfig pFrog frogConfig (cfg64 pFrog)
  | stark : RingConfig pStark starkConfig cfgStark

theorem RingConfig.prime {p : Nat} {r : Res (PoseidonConfig (ZMod p))} {c : PoseidonConfig (ZMod p)}
    (h : RingConfig p r c) : Fact p.Prime := by
  cases h
  · exact fact_goldilocks
  · exact fact_babybear
  · exact fact_frog
  · exact fact_stark

theorem RingConfig.injective {p : Nat} {r : Res (PoseidonConfig (ZMod p))} {c : PoseidonConfig (ZMod p)}
    (h : RingConfig p r c) : Function.Injective c.permute := by
  cases h
  · exact permute_goldilocks
  · exact permute_babybear
  · exact permute_frog
  · exact permute_stark

/-! ## C74: the transcript -/

section C74
variable {p N τ : Nat} {F R : Type} [CommRing F] [CommRing R] [Algebra F R]

theorem fromBase_ok {K : Type} [AddCommGroup K] (e : Encoding K F R N τ) (xs : List K) (h : xs.length = τ) :
    e.fromBase xs = some (e.base.symm fun i => xs.getD i 0) := by
  unfold Encoding.fromBase
  rw [dif_pos h]
  congr 2
  funext i
  have : i.val < xs.length := by omega
  simp [List.getD_eq_getElem?_getD, this]

theorem flat_length {K : Type} [AddCommGroup K] (e : Encoding K F R N τ) (v : R) :
    (e.flat v).length = N * τ := by
  unfold Encoding.flat
  rw [List.length_flatMap]
  have : (List.ofFn (e.coeffs v)).map (fun a => (e.toBase a).length) = List.replicate N τ := by
    apply List.ext_getElem
    · simp
    · intro i h1 h2
      simp [Encoding.toBase]
  rw [this]
  simp

theorem toBase_injective {K : Type} [AddCommGroup K] (e : Encoding K F R N τ) :
    Function.Injective e.toBase := by
  intro x y h
  exact e.base.injective (List.ofFn_injective h)

theorem flatMap_injective {α β : Type} (f : α → List β) (n : Nat) (hn : 0 < n)
    (hl : ∀ a, (f a).length = n) (hf : Function.Injective f) (xs ys : List α)
    (h : xs.flatMap f = ys.flatMap f) : xs = ys := by
  induction xs generalizing ys with
  | nil =>
    cases ys with
    | nil => rfl
    | cons y ys =>
      have := congrArg List.length h
      simp [hl] at this
      omega
  | cons x xs ih =>
    cases ys with
    | nil =>
      have := congrArg List.length h
      simp [hl] at this
      omega
    | cons y ys =>
      simp only [List.flatMap_cons] at h
      obtain ⟨h1, h2⟩ := List.append_inj h (by rw [hl, hl])
      rw [hf h1, ih ys h2]

theorem flat_injective {K : Type} [AddCommGroup K] (e : Encoding K F R N τ) (hτ : 0 < τ) :
    Function.Injective e.flat := by
  intro v w h
  have := flatMap_injective e.toBase τ hτ (by simp [Encoding.toBase]) (toBase_injective e) _ _ h
  exact e.coeffs.injective (List.ofFn_injective this)

theorem absorbSlice_eq (c : PoseidonConfig (ZMod p)) (e : Encoding (ZMod p) F R N τ)
    (s : Sponge (ZMod p) c.width) (vs : List R) :
    (poseidonT c e).absorbSlice s vs = c.absorb s (vs.flatMap e.flat) := by
  unfold Transcript.absorbSlice
  induction vs generalizing s with
  | nil => simp [PoseidonConfig.absorb]
  | cons v vs ih =>
    rw [List.foldl_cons, ih, List.flatMap_cons, ← absorb_append]
    rfl

theorem leBytes_length (u x : Nat) : (PoseidonConfig.leBytes u x).length = u := by
  simp [PoseidonConfig.leBytes]

/-- **C74**, the Poseidon transcript implements the interface assumed by the protocol theorems. For every
configuration and every state:
* `get_challenge` never aborts; the coordinates of the challenge are the next `extension_degree` outputs of the
  sponge, and exactly these outputs are absorbed;
* `squeeze_bytes` returns as many bytes as it is asked for;
* absorbing a list of ring elements is absorbing the concatenation of their coordinates, and these determine
  the list. -/
theorem C74_transcript (c : PoseidonConfig (ZMod p)) (e : Encoding (ZMod p) F R N τ)
    (hN : 0 < N) (hτ : 0 < τ) (hp : 2 ^ 8 < p) :
    (∀ s, ∃ x, getChallenge c e s = (.ok x, ((poseidonT c e).challenge s).2) ∧
      ((poseidonT c e).challenge s).1 = x ∧ e.toBase x = (c.squeeze s τ).1 ∧
      ((poseidonT c e).challenge s).2 = c.absorb (c.squeeze s τ).2 (e.toBase x)) ∧
    BytesOK (poseidonT c e) ∧
    (∀ s vs, (poseidonT c e).absorbSlice s vs = c.absorb s (vs.flatMap e.flat)) ∧
    (∀ vs ws : List R, vs.flatMap e.flat = ws.flatMap e.flat → vs = ws) := by
  refine ⟨fun s => ?_, ?_, fun s vs => absorbSlice_eq c e s vs, ?_⟩
  · have hl := squeeze_length c s τ
    have hb : e.toBase (e.base.symm fun i => (c.squeeze s τ).1.getD i 0) = (c.squeeze s τ).1 := by
      unfold Encoding.toBase
      rw [AddEquiv.apply_symm_apply]
      apply List.ext_getElem
      · simp [hl]
      · intro i h1 h2
        simp [List.getD_eq_getElem?_getD, h2]
    refine ⟨e.base.symm fun i => (c.squeeze s τ).1.getD i 0, ?_, rfl, hb, ?_⟩
    · unfold getChallenge
      simp only [fromBase_ok e _ hl]
      rfl
    · rw [hb]; rfl
  · intro s n
    have hu : 0 < PoseidonConfig.usableBytes p := by
      unfold PoseidonConfig.usableBytes
      have : 8 < Nat.size p := by rw [Nat.lt_size]; omega
      omega
    simp only [poseidonT, PoseidonConfig.squeezeBytes]
    generalize PoseidonConfig.usableBytes p = u at hu
    rw [List.length_take, List.length_flatMap]
    have : ((c.squeeze s ((n + u - 1) / u)).1.map fun x => (PoseidonConfig.leBytes u x.val).length)
        = List.replicate ((n + u - 1) / u) u := by
      rw [← squeeze_length c s ((n + u - 1) / u)]
      simp only [leBytes_length]
      rw [List.map_const', squeeze_length]
    rw [this, List.sum_replicate, smul_eq_mul]
    apply min_eq_left
    have h1 := Nat.div_add_mod (n + u - 1) u
    have h2 := Nat.mod_lt (n + u - 1) hu
    have h3 : u * ((n + u - 1) / u) = (n + u - 1) / u * u := Nat.mul_comm _ _
    omega
  · exact flatMap_injective e.flat (N * τ) (Nat.mul_pos hN hτ) (flat_length e) (flat_injective e hτ)

end C74

/-! ## C75: the permutation is invertible, states never merge -/

/-- **C75**: for each of the four rings `get_poseidon_config` does not abort, the S-box and the
permutation are bijective. -/
theorem C75_bijective {p : Nat} {r : Res (PoseidonConfig (ZMod p))} {c : PoseidonConfig (ZMod p)}
    (h : RingConfig p r c) :
    r = .ok c ∧ Function.Bijective (fun x : ZMod p => x ^ c.alpha) ∧ Function.Bijective c.permute := by
  have := h.prime
  refine ⟨?_, ?_, Finite.injective_iff_bijective.1 h.injective⟩
  · cases h
    · exact new64 _
    · exact new64 _
    · exact new64 _
    · exact newStark
  · rw [← Finite.injective_iff_bijective]
    cases h
    · exact pow_injective 7 10540996611094048183 4 (by norm_num)
    · exact pow_injective 7 1725656503 6 (by norm_num)
    · exact pow_injective 7 13638936446850500263 6 (by norm_num)
    · exact pow_injective 3
        2412335192444087475798215188730046737082071476887731133315394704090581346987 2 (by norm_num)

/-- The S-box is not a permutation for every exponent: cubing identifies cube roots of unity modulo the
Goldilocks prime. -/
example : ¬ Function.Injective fun x : ZMod pGoldilocks => x ^ 3 := by
  intro h
  have h1 : (fun x : ZMod pGoldilocks => x ^ 3) 1 = (fun x : ZMod pGoldilocks => x ^ 3) 4294967295 := by
    decide +kernel
  exact absurd (h h1) (by decide +kernel)

/-- Operations on a transcript. -/
inductive TOp (R : Type) where
  | absorb (v : R)
  | challenge
  | bytes (n : Nat)

/-- State after one operation. -/
def TOp.run {F R σ : Type} (T : Transcript F R σ) (s : σ) : TOp R → σ
  | .absorb v => T.absorb s v
  | .challenge => (T.challenge s).2
  | .bytes n => (T.bytes s n).2

/-- A history in which no field challenge directly follows `squeeze_bytes` (`sq`: the previous operation was
`squeeze_bytes`). -/
def Regular {R : Type} : Bool → List (TOp R) → Prop
  | _, [] => True
  | _, .absorb _ :: ops => Regular false ops
  | true, .challenge :: _ => False
  | false, .challenge :: ops => Regular false ops
  | _, .bytes _ :: ops => Regular true ops

/-- The mode is absorbing. -/
def Sponge.isAbsorbing {K : Type} {w : Nat} (s : Sponge K w) : Prop := ∃ i, s.mode = .absorbing i

section C75
variable {p N τ : Nat} [Fact p.Prime] {F R : Type} [CommRing F] [CommRing R] [Algebra F R]

theorem rateAt_lt {K : Type} [CommRing K] (c : PoseidonConfig K) (st : Fin c.width → K) (i : Nat) (h : i < c.rate) :
    c.rateAt st i = st ⟨c.capacity + i, by unfold PoseidonConfig.width; omega⟩ := by
  unfold PoseidonConfig.rateAt
  rw [dif_pos]

theorem challenge_state (c : PoseidonConfig (ZMod p)) (e : Encoding (ZMod p) F R N τ) (hτ : 0 < τ)
    (hr : τ ≤ c.rate) (s : Sponge (ZMod p) c.width) (i : Nat) (hm : s.mode = .absorbing i) :
    ((poseidonT c e).challenge s).2 = ⟨fun j =>
      if c.capacity ≤ j.val ∧ j.val < c.capacity + τ then 2 * c.permute s.state j else c.permute s.state j,
      .absorbing τ⟩ := by
  have hsq : c.squeeze s τ = ((List.range τ).map fun k => c.rateAt (c.permute s.state) k,
      ⟨c.permute s.state, .squeezing τ⟩) := by
    unfold PoseidonConfig.squeeze
    rw [hm]
    simp only [squeezeFrom_block c τ (c.permute s.state) 0 (by omega), Nat.zero_add]
  simp only [poseidonT, hsq]
  unfold PoseidonConfig.absorb
  rw [if_neg (by simp; omega)]
  simp only
  rw [absorbFold_block c _ _ 0 (by simp; omega)]
  simp only [List.length_map, List.length_range, Nat.add_zero, Nat.zero_add]
  congr 1
  funext j
  split
  · rename_i hj
    rw [List.getD_eq_getElem?_getD, List.getElem?_map, List.getElem?_range (by omega)]
    simp only [Option.map_some, Option.getD_some]
    rw [rateAt_lt c _ _ (by omega), two_mul]
    congr 2
    ext
    simp only
    omega
  · rfl

/-- **C75**, one step: with a bijective permutation, different states in the same mode stay different under
`absorb`, `squeeze_bytes` and (from an absorbing state) `get_challenge`. -/
theorem C75_step (c : PoseidonConfig (ZMod p)) (hc : Function.Injective c.permute) (hp : p ≠ 2)
    (e : Encoding (ZMod p) F R N τ) (hτ : 0 < τ) (hr : τ ≤ c.rate) (s t : Sponge (ZMod p) c.width)
    (hm : s.mode = t.mode) :
    (∀ v, (poseidonT c e).absorb s v = (poseidonT c e).absorb t v → s = t) ∧
    (∀ n, ((poseidonT c e).bytes s n).2 = ((poseidonT c e).bytes t n).2 → s = t) ∧
    (Sponge.isAbsorbing s → ((poseidonT c e).challenge s).2 = ((poseidonT c e).challenge t).2 → s = t) := by
  refine ⟨fun v h => absorb_injective c hc s t _ hm h, fun n h => squeeze_injective c hc s t _ hm h, ?_⟩
  rintro ⟨i, hi⟩ h
  rw [challenge_state c e hτ hr s i hi, challenge_state c e hτ hr t i (hm ▸ hi)] at h
  have h2 : (2 : ZMod p) ≠ 0 := by
    intro h2
    have : ((2 : Nat) : ZMod p) = 0 := by simpa using h2
    rw [ZMod.natCast_eq_zero_iff] at this
    have h3 := (Nat.prime_dvd_prime_iff_eq (Fact.out : p.Prime) Nat.prime_two).1 this
    exact hp h3
  have : c.permute s.state = c.permute t.state := by
    funext j
    have := congrFun (Sponge.mk.inj h).1 j
    split at this
    · exact mul_left_cancel₀ h2 this
    · exact this
  have := hc this
  cases s; cases t
  simp_all

theorem absorb_isAbsorbing {K : Type} [CommRing K] (c : PoseidonConfig K) (s : Sponge K c.width) (xs : List K) (h : xs ≠ []) :
    Sponge.isAbsorbing (c.absorb s xs) := by
  unfold PoseidonConfig.absorb
  rw [if_neg (by simpa using h)]
  exact ⟨_, rfl⟩

/-- **C75**, histories: two transcripts in different states of the same mode that see the same operations end in
different states, for each of the four rings and any history in which no field challenge directly follows
`squeeze_bytes`. What was once absorbed differently is never forgotten. -/
theorem C75_never_merge {r : Res (PoseidonConfig (ZMod p))} {c : PoseidonConfig (ZMod p)}
    (h : RingConfig p r c) (e : Encoding (ZMod p) F R N τ) (hN : 0 < N) (hτ : 0 < τ) (hr : τ ≤ c.rate)
    (ops : List (TOp R)) (sq : Bool) (hops : Regular sq ops) (s t : Sponge (ZMod p) c.width)
    (hm : s.mode = t.mode) (hsq : sq = false → Sponge.isAbsorbing s) (hst : s ≠ t) :
    ops.foldl (TOp.run (poseidonT c e)) s ≠ ops.foldl (TOp.run (poseidonT c e)) t := by
  have hc := h.injective
  have hp : p ≠ 2 := by
    rintro rfl
    cases h
  induction ops generalizing s t sq with
  | nil => exact hst
  | cons op ops ih =>
    obtain ⟨h1, h2, h3⟩ := C75_step c hc hp e hτ hr s t hm
    have hne : ∀ v, e.flat v ≠ [] := by
      intro v hv
      have h5 := flat_length e v
      have h6 := Nat.mul_pos hN hτ
      rw [hv, List.length_nil] at h5
      omega
    simp only [List.foldl_cons]
    cases op with
    | absorb v =>
      refine ih false (by cases sq <;> exact hops) _ _ ?_ ?_ ?_
      · exact absorb_mode c s t _ _ rfl hm
      · intro _; exact absorb_isAbsorbing c s _ (hne v)
      · exact fun hh => hst (h1 v hh)
    | challenge =>
      cases sq with
      | true => exact absurd hops id
      | false =>
        have ha := hsq rfl
        obtain ⟨i, hi⟩ := ha
        refine ih false hops _ _ ?_ ?_ ?_
        · simp only [TOp.run]
          rw [challenge_state c e hτ hr s i hi, challenge_state c e hτ hr t i (hm ▸ hi)]
        · intro _
          simp only [TOp.run]
          rw [challenge_state c e hτ hr s i hi]
          exact ⟨_, rfl⟩
        · exact fun hh => hst (h3 ⟨i, hi⟩ hh)
    | bytes n =>
      refine ih true (by cases sq <;> exact hops) _ _ ?_ (by simp) ?_
      · exact squeeze_mode c s t _ hm
      · exact fun hh => hst (h2 n hh)

/-- **C75**, binding within a block: from the same state, different lists of the same length that fit in the
current block lead to different states. -/
theorem C75_block_binding (c : PoseidonConfig (ZMod p)) (s : Sponge (ZMod p) c.width) (i : Nat)
    (hm : s.mode = .absorbing i) (xs ys : List (ZMod p)) (hl : xs.length = ys.length)
    (hr : i + xs.length ≤ c.rate) (h : c.absorb s xs = c.absorb s ys) : xs = ys := by
  cases xs with
  | nil => cases ys with
    | nil => rfl
    | cons y ys => simp at hl
  | cons x xs =>
    cases ys with
    | nil => simp at hl
    | cons y ys =>
      unfold PoseidonConfig.absorb at h
      simp only [List.isEmpty_cons, Bool.false_eq_true, if_false, hm] at h
      rw [absorbFold_block c _ _ _ hr, absorbFold_block c _ _ _ (by omega)] at h
      have h1 := (Sponge.mk.inj h).1
      apply List.ext_getElem hl
      intro k hk hk2
      have := congrFun h1 ⟨c.capacity + i + k, by unfold PoseidonConfig.width; omega⟩
      simp only at this
      rw [if_pos (by omega), if_pos (by omega)] at this
      have h2 := add_left_cancel this
      rw [show c.capacity + i + k - (c.capacity + i) = k by omega, List.getD_eq_getElem?_getD,
        List.getD_eq_getElem?_getD, List.getElem?_eq_getElem hk, List.getElem?_eq_getElem hk2] at h2
      exact h2

end C75

/-- Goldilocks: `N = 8`, `τ = 3`, here as functions. -/
def exEnc (p N τ : Nat) : Encoding (ZMod p) (Fin τ → ZMod p) (Fin N → Fin τ → ZMod p) N τ :=
  ⟨AddEquiv.refl _, AddEquiv.refl _⟩

/-- A short history. -/
def exOps : List (TOp (Fin 8 → Fin 3 → ZMod pGoldilocks)) :=
  [.absorb 1, .challenge, .bytes 18, .absorb 2, .challenge]

example (s t : Sponge (ZMod pGoldilocks) (cfg64 pGoldilocks).width) (hs : s.mode = .absorbing 0)
    (ht : t.mode = .absorbing 0) (hst : s ≠ t) :
    exOps.foldl (TOp.run (poseidonT (cfg64 pGoldilocks) (exEnc pGoldilocks 8 3))) s
      ≠ exOps.foldl (TOp.run (poseidonT (cfg64 pGoldilocks) (exEnc pGoldilocks 8 3))) t :=
  C75_never_merge .goldilocks (exEnc _ 8 3) (by norm_num) (by norm_num) (by decide) exOps false trivial s t
    (hs.trans ht.symm) (fun _ => ⟨0, hs⟩) hst

/-! ## C76: diffusion of the linear layer -/

theorem mds_sub {K : Type} [CommRing K] (c : PoseidonConfig K) (x y : Fin c.width → K) :
    c.applyMds x - c.applyMds y = c.mdsMat.mulVec (x - y) := by
  rw [Matrix.mulVec_sub]; rfl

/-- **C76**, Goldilocks: the linear layer has maximal diffusion (it is a Cauchy matrix). -/
theorem C76_goldilocks : MaxDiffusion (cfg64 pGoldilocks).applyMds := by
  intro x y hxy
  rw [mds_sub]
  exact goldilocks_weight (x - y) (sub_ne_zero.2 hxy)

theorem weight_single {K : Type} [CommRing K] [DecidableEq K] {w : Nat} (i : Fin w) (a : K) (ha : a ≠ 0) :
    weight (Pi.single i a - 0 : Fin w → K) = 1 := by
  unfold weight
  rw [Finset.card_eq_one]
  refine ⟨i, ?_⟩
  ext j
  simp only [mem_filter, mem_univ, true_and, mem_singleton, Pi.sub_apply, Pi.zero_apply, sub_zero,
    Pi.single_apply]
  by_cases h : j = i <;> simp [h, ha]

example : 24 ≤ weight ((cfg64 pGoldilocks).applyMds (Pi.single (0 : Fin 24) 1)
    - (cfg64 pGoldilocks).applyMds 0) := by
  have h := C76_goldilocks (Pi.single (0 : Fin 24) (1 : ZMod pGoldilocks)) 0 (by
    intro h
    have h1 : (1 : ZMod pGoldilocks) = 0 :=
      (Pi.single_eq_same (M := fun _ : Fin 24 => ZMod pGoldilocks) (0 : Fin 24) 1).symm.trans
        (congrFun h (0 : Fin 24))
    exact one_ne_zero h1)
  have hw := weight_single (0 : Fin 24) (1 : ZMod pGoldilocks) one_ne_zero
  have h24 : (cfg64 pGoldilocks).width = 24 := rfl
  have h2 : (cfg64 pGoldilocks).width + 1 ≤ 1 + weight ((cfg64 pGoldilocks).applyMds
      (Pi.single (0 : Fin 24) 1) - (cfg64 pGoldilocks).applyMds 0) := hw ▸ h
  omega

/-- Any three of the six values vanish only together with all entries. -/
theorem stark_key (a b c : ZMod pStark) (hne : ¬ (a = 0 ∧ b = 0 ∧ c = 0)) :
    4 ≤ ((if a = 0 then 0 else 1) + (if b = 0 then 0 else 1) + (if c = 0 then 0 else 1) : Nat)
      + ((if 3 * a + b + c = 0 then 0 else 1) + (if a - b + c = 0 then 0 else 1)
        + (if a + b - 2 * c = 0 then 0 else 1)) := by
  have n2 : (2 : ZMod pStark) ≠ 0 := by
    have := stark_ne_zero 2 (by omega) (by norm_num)
    simpa using this
  have n3 : (3 : ZMod pStark) ≠ 0 := by
    have := stark_ne_zero 3 (by omega) (by norm_num)
    simpa using this
  have n4 : (4 : ZMod pStark) ≠ 0 := by
    have := stark_ne_zero 4 (by omega) (by norm_num)
    simpa using this
  have n7 : (7 : ZMod pStark) ≠ 0 := by
    have := stark_ne_zero 7 (by omega) (by norm_num)
    simpa using this
  have n8 : (8 : ZMod pStark) ≠ 0 := by
    have := stark_ne_zero 8 (by omega) (by norm_num)
    simpa using this
  have t012 : a = 0 → b = 0 → c = 0 → a = 0 ∧ b = 0 ∧ c = 0 := by
    intro h1 h2 h3
    refine ⟨?_, ?_, ?_⟩
    · linear_combination (1) * h1 + (0) * h2 + (0) * h3
    · linear_combination (0) * h1 + (1) * h2 + (0) * h3
    · linear_combination (0) * h1 + (0) * h2 + (1) * h3
  have t013 : a = 0 → b = 0 → (3 * a + b + c) = 0 → a = 0 ∧ b = 0 ∧ c = 0 := by
    intro h1 h2 h3
    refine ⟨?_, ?_, ?_⟩
    · linear_combination (1) * h1 + (0) * h2 + (0) * h3
    · linear_combination (0) * h1 + (1) * h2 + (0) * h3
    · linear_combination (-3) * h1 + (-1) * h2 + (1) * h3
  have t014 : a = 0 → b = 0 → (a - b + c) = 0 → a = 0 ∧ b = 0 ∧ c = 0 := by
    intro h1 h2 h3
    refine ⟨?_, ?_, ?_⟩
    · linear_combination (1) * h1 + (0) * h2 + (0) * h3
    · linear_combination (0) * h1 + (1) * h2 + (0) * h3
    · linear_combination (-1) * h1 + (1) * h2 + (1) * h3
  have t015 : a = 0 → b = 0 → (a + b - 2 * c) = 0 → a = 0 ∧ b = 0 ∧ c = 0 := by
    intro h1 h2 h3
    refine ⟨?_, ?_, ?_⟩
    · exact (mul_eq_zero.1 (show (2 : ZMod pStark) * a = 0 by linear_combination (2) * h1 + (0) * h2 + (0) * h3)).resolve_left n2
    · exact (mul_eq_zero.1 (show (2 : ZMod pStark) * b = 0 by linear_combination (0) * h1 + (2) * h2 + (0) * h3)).resolve_left n2
    · exact (mul_eq_zero.1 (show (2 : ZMod pStark) * c = 0 by linear_combination (1) * h1 + (1) * h2 + (-1) * h3)).resolve_left n2
  have t023 : a = 0 → c = 0 → (3 * a + b + c) = 0 → a = 0 ∧ b = 0 ∧ c = 0 := by
    intro h1 h2 h3
    refine ⟨?_, ?_, ?_⟩
    · linear_combination (1) * h1 + (0) * h2 + (0) * h3
    · linear_combination (-3) * h1 + (-1) * h2 + (1) * h3
    · linear_combination (0) * h1 + (1) * h2 + (0) * h3
  have t024 : a = 0 → c = 0 → (a - b + c) = 0 → a = 0 ∧ b = 0 ∧ c = 0 := by
    intro h1 h2 h3
    refine ⟨?_, ?_, ?_⟩
    · linear_combination (1) * h1 + (0) * h2 + (0) * h3
    · linear_combination (1) * h1 + (1) * h2 + (-1) * h3
    · linear_combination (0) * h1 + (1) * h2 + (0) * h3
  have t025 : a = 0 → c = 0 → (a + b - 2 * c) = 0 → a = 0 ∧ b = 0 ∧ c = 0 := by
    intro h1 h2 h3
    refine ⟨?_, ?_, ?_⟩
    · linear_combination (1) * h1 + (0) * h2 + (0) * h3
    · linear_combination (-1) * h1 + (2) * h2 + (1) * h3
    · linear_combination (0) * h1 + (1) * h2 + (0) * h3
  have t034 : a = 0 → (3 * a + b + c) = 0 → (a - b + c) = 0 → a = 0 ∧ b = 0 ∧ c = 0 := by
    intro h1 h2 h3
    refine ⟨?_, ?_, ?_⟩
    · exact (mul_eq_zero.1 (show (2 : ZMod pStark) * a = 0 by linear_combination (2) * h1 + (0) * h2 + (0) * h3)).resolve_left n2
    · exact (mul_eq_zero.1 (show (2 : ZMod pStark) * b = 0 by linear_combination (-2) * h1 + (1) * h2 + (-1) * h3)).resolve_left n2
    · exact (mul_eq_zero.1 (show (2 : ZMod pStark) * c = 0 by linear_combination (-4) * h1 + (1) * h2 + (1) * h3)).resolve_left n2
  have t035 : a = 0 → (3 * a + b + c) = 0 → (a + b - 2 * c) = 0 → a = 0 ∧ b = 0 ∧ c = 0 := by
    intro h1 h2 h3
    refine ⟨?_, ?_, ?_⟩
    · exact (mul_eq_zero.1 (show (3 : ZMod pStark) * a = 0 by linear_combination (3) * h1 + (0) * h2 + (0) * h3)).resolve_left n3
    · exact (mul_eq_zero.1 (show (3 : ZMod pStark) * b = 0 by linear_combination (-7) * h1 + (2) * h2 + (1) * h3)).resolve_left n3
    · exact (mul_eq_zero.1 (show (3 : ZMod pStark) * c = 0 by linear_combination (-2) * h1 + (1) * h2 + (-1) * h3)).resolve_left n3
  have t045 : a = 0 → (a - b + c) = 0 → (a + b - 2 * c) = 0 → a = 0 ∧ b = 0 ∧ c = 0 := by
    intro h1 h2 h3
    refine ⟨?_, ?_, ?_⟩
    · linear_combination (1) * h1 + (0) * h2 + (0) * h3
    · linear_combination (3) * h1 + (-2) * h2 + (-1) * h3
    · linear_combination (2) * h1 + (-1) * h2 + (-1) * h3
  have t123 : b = 0 → c = 0 → (3 * a + b + c) = 0 → a = 0 ∧ b = 0 ∧ c = 0 := by
    intro h1 h2 h3
    refine ⟨?_, ?_, ?_⟩
    · exact (mul_eq_zero.1 (show (3 : ZMod pStark) * a = 0 by linear_combination (-1) * h1 + (-1) * h2 + (1) * h3)).resolve_left n3
    · exact (mul_eq_zero.1 (show (3 : ZMod pStark) * b = 0 by linear_combination (3) * h1 + (0) * h2 + (0) * h3)).resolve_left n3
    · exact (mul_eq_zero.1 (show (3 : ZMod pStark) * c = 0 by linear_combination (0) * h1 + (3) * h2 + (0) * h3)).resolve_left n3
  have t124 : b = 0 → c = 0 → (a - b + c) = 0 → a = 0 ∧ b = 0 ∧ c = 0 := by
    intro h1 h2 h3
    refine ⟨?_, ?_, ?_⟩
    · linear_combination (1) * h1 + (-1) * h2 + (1) * h3
    · linear_combination (1) * h1 + (0) * h2 + (0) * h3
    · linear_combination (0) * h1 + (1) * h2 + (0) * h3
  have t125 : b = 0 → c = 0 → (a + b - 2 * c) = 0 → a = 0 ∧ b = 0 ∧ c = 0 := by
    intro h1 h2 h3
    refine ⟨?_, ?_, ?_⟩
    · linear_combination (-1) * h1 + (2) * h2 + (1) * h3
    · linear_combination (1) * h1 + (0) * h2 + (0) * h3
    · linear_combination (0) * h1 + (1) * h2 + (0) * h3
  have t134 : b = 0 → (3 * a + b + c) = 0 → (a - b + c) = 0 → a = 0 ∧ b = 0 ∧ c = 0 := by
    intro h1 h2 h3
    refine ⟨?_, ?_, ?_⟩
    · exact (mul_eq_zero.1 (show (2 : ZMod pStark) * a = 0 by linear_combination (-2) * h1 + (1) * h2 + (-1) * h3)).resolve_left n2
    · exact (mul_eq_zero.1 (show (2 : ZMod pStark) * b = 0 by linear_combination (2) * h1 + (0) * h2 + (0) * h3)).resolve_left n2
    · exact (mul_eq_zero.1 (show (2 : ZMod pStark) * c = 0 by linear_combination (4) * h1 + (-1) * h2 + (3) * h3)).resolve_left n2
  have t135 : b = 0 → (3 * a + b + c) = 0 → (a + b - 2 * c) = 0 → a = 0 ∧ b = 0 ∧ c = 0 := by
    intro h1 h2 h3
    refine ⟨?_, ?_, ?_⟩
    · exact (mul_eq_zero.1 (show (7 : ZMod pStark) * a = 0 by linear_combination (-3) * h1 + (2) * h2 + (1) * h3)).resolve_left n7
    · exact (mul_eq_zero.1 (show (7 : ZMod pStark) * b = 0 by linear_combination (7) * h1 + (0) * h2 + (0) * h3)).resolve_left n7
    · exact (mul_eq_zero.1 (show (7 : ZMod pStark) * c = 0 by linear_combination (2) * h1 + (1) * h2 + (-3) * h3)).resolve_left n7
  have t145 : b = 0 → (a - b + c) = 0 → (a + b - 2 * c) = 0 → a = 0 ∧ b = 0 ∧ c = 0 := by
    intro h1 h2 h3
    refine ⟨?_, ?_, ?_⟩
    · exact (mul_eq_zero.1 (show (3 : ZMod pStark) * a = 0 by linear_combination (1) * h1 + (2) * h2 + (1) * h3)).resolve_left n3
    · exact (mul_eq_zero.1 (show (3 : ZMod pStark) * b = 0 by linear_combination (3) * h1 + (0) * h2 + (0) * h3)).resolve_left n3
    · exact (mul_eq_zero.1 (show (3 : ZMod pStark) * c = 0 by linear_combination (2) * h1 + (1) * h2 + (-1) * h3)).resolve_left n3
  have t234 : c = 0 → (3 * a + b + c) = 0 → (a - b + c) = 0 → a = 0 ∧ b = 0 ∧ c = 0 := by
    intro h1 h2 h3
    refine ⟨?_, ?_, ?_⟩
    · exact (mul_eq_zero.1 (show (4 : ZMod pStark) * a = 0 by linear_combination (-2) * h1 + (1) * h2 + (1) * h3)).resolve_left n4
    · exact (mul_eq_zero.1 (show (4 : ZMod pStark) * b = 0 by linear_combination (2) * h1 + (1) * h2 + (-3) * h3)).resolve_left n4
    · exact (mul_eq_zero.1 (show (4 : ZMod pStark) * c = 0 by linear_combination (4) * h1 + (0) * h2 + (0) * h3)).resolve_left n4
  have t235 : c = 0 → (3 * a + b + c) = 0 → (a + b - 2 * c) = 0 → a = 0 ∧ b = 0 ∧ c = 0 := by
    intro h1 h2 h3
    refine ⟨?_, ?_, ?_⟩
    · exact (mul_eq_zero.1 (show (2 : ZMod pStark) * a = 0 by linear_combination (-3) * h1 + (1) * h2 + (-1) * h3)).resolve_left n2
    · exact (mul_eq_zero.1 (show (2 : ZMod pStark) * b = 0 by linear_combination (7) * h1 + (-1) * h2 + (3) * h3)).resolve_left n2
    · exact (mul_eq_zero.1 (show (2 : ZMod pStark) * c = 0 by linear_combination (2) * h1 + (0) * h2 + (0) * h3)).resolve_left n2
  have t245 : c = 0 → (a - b + c) = 0 → (a + b - 2 * c) = 0 → a = 0 ∧ b = 0 ∧ c = 0 := by
    intro h1 h2 h3
    refine ⟨?_, ?_, ?_⟩
    · exact (mul_eq_zero.1 (show (2 : ZMod pStark) * a = 0 by linear_combination (1) * h1 + (1) * h2 + (1) * h3)).resolve_left n2
    · exact (mul_eq_zero.1 (show (2 : ZMod pStark) * b = 0 by linear_combination (3) * h1 + (-1) * h2 + (1) * h3)).resolve_left n2
    · exact (mul_eq_zero.1 (show (2 : ZMod pStark) * c = 0 by linear_combination (2) * h1 + (0) * h2 + (0) * h3)).resolve_left n2
  have t345 : (3 * a + b + c) = 0 → (a - b + c) = 0 → (a + b - 2 * c) = 0 → a = 0 ∧ b = 0 ∧ c = 0 := by
    intro h1 h2 h3
    refine ⟨?_, ?_, ?_⟩
    · exact (mul_eq_zero.1 (show (8 : ZMod pStark) * a = 0 by linear_combination (1) * h1 + (3) * h2 + (2) * h3)).resolve_left n8
    · exact (mul_eq_zero.1 (show (8 : ZMod pStark) * b = 0 by linear_combination (3) * h1 + (-7) * h2 + (-2) * h3)).resolve_left n8
    · exact (mul_eq_zero.1 (show (8 : ZMod pStark) * c = 0 by linear_combination (2) * h1 + (-2) * h2 + (-4) * h3)).resolve_left n8
  by_cases h0 : a = 0 <;> by_cases h1 : b = 0 <;> by_cases h2 : c = 0 <;>
    by_cases h3 : 3 * a + b + c = 0 <;> by_cases h4 : a - b + c = 0 <;>
    by_cases h5 : a + b - 2 * c = 0 <;>
    first
    | (exfalso; exact hne (t012 h0 h1 h2))
    | (exfalso; exact hne (t013 h0 h1 h3))
    | (exfalso; exact hne (t014 h0 h1 h4))
    | (exfalso; exact hne (t015 h0 h1 h5))
    | (exfalso; exact hne (t023 h0 h2 h3))
    | (exfalso; exact hne (t024 h0 h2 h4))
    | (exfalso; exact hne (t025 h0 h2 h5))
    | (exfalso; exact hne (t034 h0 h3 h4))
    | (exfalso; exact hne (t035 h0 h3 h5))
    | (exfalso; exact hne (t045 h0 h4 h5))
    | (exfalso; exact hne (t123 h1 h2 h3))
    | (exfalso; exact hne (t124 h1 h2 h4))
    | (exfalso; exact hne (t125 h1 h2 h5))
    | (exfalso; exact hne (t134 h1 h3 h4))
    | (exfalso; exact hne (t135 h1 h3 h5))
    | (exfalso; exact hne (t145 h1 h4 h5))
    | (exfalso; exact hne (t234 h2 h3 h4))
    | (exfalso; exact hne (t235 h2 h3 h5))
    | (exfalso; exact hne (t245 h2 h4 h5))
    | (exfalso; exact hne (t345 h3 h4 h5))
    | (split_ifs; omega)

theorem weight_three (x : Fin 3 → ZMod pStark) :
    weight x = (if x 0 = 0 then 0 else 1) + (if x 1 = 0 then 0 else 1) + (if x 2 = 0 then 0 else 1) := by
  unfold weight
  rw [Finset.card_filter, Fin.sum_univ_three]
  simp only [ne_eq, ite_not]

theorem stark_weight (v : Fin 3 → ZMod pStark) (hv : v ≠ 0) : 3 + 1 ≤ weight v
    + weight (Matrix.mulVec (!![3, 1, 1; 1, -1, 1; 1, 1, -2] : Matrix (Fin 3) (Fin 3) (ZMod pStark)) v) := by
  rw [weight_three, weight_three]
  have e0 : Matrix.mulVec (!![3, 1, 1; 1, -1, 1; 1, 1, -2] : Matrix (Fin 3) (Fin 3) (ZMod pStark)) v
      = ![3 * v 0 + v 1 + v 2, v 0 - v 1 + v 2, v 0 + v 1 - 2 * v 2] := by
    funext i
    fin_cases i <;> (simp [Matrix.mulVec, dotProduct, Fin.sum_univ_three]; try ring)
  rw [e0]
  have := stark_key (v 0) (v 1) (v 2) (by
    rintro ⟨h0, h1, h2⟩
    apply hv
    funext i
    have : ∀ i : Fin 3, v i = 0 := by
      intro i
      fin_cases i
      · exact h0
      · exact h1
      · exact h2
    exact this i)
  convert this <;> rfl

/-- **C76**, Stark: the linear layer has maximal diffusion. -/
theorem C76_stark : MaxDiffusion cfgStark.applyMds := by
  intro x y hxy
  rw [mds_sub, mdsMatStark]
  exact stark_weight (x - y) (sub_ne_zero.2 hxy)

/-- Do the entries of a table vanish modulo `p`? -/
def noZeroCheck (p w : Nat) (t : List (List Nat)) : Bool :=
  (List.range w).all fun i => (List.range w).all fun j => cell t i j % p != 0

theorem noZero_cell {p w : Nat} {t : List (List Nat)} (h : noZeroCheck p w t = true) (i j : Fin w) :
    (cell t i.val j.val : ZMod p) ≠ 0 := by
  unfold noZeroCheck at h
  simp only [List.all_eq_true, List.mem_range, bne_iff_ne, ne_eq] at h
  intro h0
  rw [ZMod.natCast_eq_zero_iff] at h0
  exact h i i.isLt j j.isLt (Nat.mod_eq_zero_of_dvd h0)

/-- A matrix without zero entries spreads a difference in one entry to all entries. -/
theorem spread_single {L : Type} [Field L] [DecidableEq L] {w : Nat} (M : Matrix (Fin w) (Fin w) L)
    (hM : ∀ i j, M i j ≠ 0) (v : Fin w → L) (hv : weight v = 1) : weight (M.mulVec v) = w := by
  obtain ⟨k, hk⟩ := Finset.card_eq_one.1 hv
  have hk1 : v k ≠ 0 := by
    have : k ∈ univ.filter fun i => v i ≠ 0 := by rw [hk]; simp
    exact (mem_filter.1 this).2
  have hk2 : ∀ j, j ≠ k → v j = 0 := by
    intro j hj
    by_contra h
    have : j ∈ univ.filter fun i => v i ≠ 0 := by simp [h]
    rw [hk, mem_singleton] at this
    exact hj this
  have : ∀ i, M.mulVec v i ≠ 0 := by
    intro i
    simp only [Matrix.mulVec, dotProduct]
    rw [Finset.sum_eq_single k]
    · exact mul_ne_zero (hM i k) hk1
    · intro j _ hj; rw [hk2 j hj, mul_zero]
    · intro h; exact absurd (mem_univ k) h
  unfold weight
  rw [Finset.filter_true_of_mem (fun i _ => this i), Finset.card_univ, Fintype.card_fin]

theorem mds_spread {p : Nat} [Fact p.Prime] {N : List (List Nat)} (h1 : noZeroCheck p 24 mds64 = true)
    (h2 : noZeroCheck p 24 N = true) (h3 : invCheck p 24 N mds64 = true)
    (x y : Fin (cfg64 p).width → ZMod p) :
    (weight (x - y) = 1 → weight ((cfg64 p).applyMds x - (cfg64 p).applyMds y) = 24) ∧
    (weight ((cfg64 p).applyMds x - (cfg64 p).applyMds y) = 1 → weight (x - y) = 24) := by
  rw [mds_sub, mdsMat64]
  refine ⟨fun h => spread_single (cellMat p 24 mds64) (fun i j => noZero_cell h1 i j) _ h, fun h => ?_⟩
  have h4 := spread_single (cellMat p 24 N) (fun i j => noZero_cell h2 i j)
    (Matrix.mulVec (cellMat p 24 mds64) (x - y)) h
  have h5 : Matrix.mulVec (cellMat p 24 N) (Matrix.mulVec (cellMat p 24 mds64) (x - y)) = x - y :=
    (Matrix.mulVec_mulVec _ _ _).trans
      ((congrArg (fun A => Matrix.mulVec A (x - y)) (invCheck_mul h3)).trans (Matrix.one_mulVec _))
  exact (congrArg weight h5).symm.trans h4

/-- **C76**, BabyBear and Frog, partial: the linear layer is invertible (`C75`), a difference in a single entry
spreads to all 24 entries, and a difference in a single entry of the image comes from a difference in all 24.
Missing: the other numbers of entries. For BabyBear the rest is false (`C76_babybear_not_max`); for Frog it is open. -/
theorem C76_single_partial :
    (∀ x y, (weight (x - y) = 1 → weight ((cfg64 pBabyBear).applyMds x - (cfg64 pBabyBear).applyMds y) = 24) ∧
      (weight ((cfg64 pBabyBear).applyMds x - (cfg64 pBabyBear).applyMds y) = 1 → weight (x - y) = 24)) ∧
    (∀ x y, (weight (x - y) = 1 → weight ((cfg64 pFrog).applyMds x - (cfg64 pFrog).applyMds y) = 24) ∧
      (weight ((cfg64 pFrog).applyMds x - (cfg64 pFrog).applyMds y) = 1 → weight (x - y) = 24)) := by
  refine ⟨fun x y => ?_, fun x y => ?_⟩
  · exact mds_spread (by decide +kernel) (N := inv_babybear) (by decide +kernel) inv_babybear_ok x y
  · exact mds_spread (by decide +kernel) (N := inv_frog) (by decide +kernel) inv_frog_ok x y

/-- The number of nonzero entries of a vector given by a list of numbers below `p`. -/
theorem weight_list {p w : Nat} {l : List Nat} (h : ∀ i < w, l.getD i 0 < p) :
    weight (fun i : Fin w => (l.getD i.val 0 : ZMod p))
      = (univ.filter fun i : Fin w => l.getD i.val 0 ≠ 0).card := by
  unfold weight
  congr 1
  ext i
  simp only [mem_filter, mem_univ, true_and, ne_eq, ZMod.natCast_eq_zero_iff]
  constructor
  · intro h1 h2; exact h1 (by rw [h2]; exact dvd_zero p)
  · intro h1 h2
    have := Nat.le_of_dvd (Nat.pos_of_ne_zero h1) h2
    have := h i i.isLt
    omega

/-- `M v = image` modulo `p`. -/
def imageCheck (p w : Nat) (M : List (List Nat)) (v image : List Nat) : Bool :=
  (List.range w).all fun i => dotN (M.getD i []) v % p == image.getD i 0

theorem imageCheck_mulVec {p w : Nat} {M : List (List Nat)} {v image : List Nat}
    (h : imageCheck p w M v image = true) (hv : v.length = w) :
    (cellMat p w M).mulVec (fun i => (v.getD i.val 0 : ZMod p)) = fun i => (image.getD i.val 0 : ZMod p) := by
  unfold imageCheck at h
  simp only [List.all_eq_true, List.mem_range, beq_iff_eq] at h
  funext i
  rw [← h i i.isLt, ZMod.natCast_mod, dotN_cast p _ v w hv]
  simp only [Matrix.mulVec, dotProduct, cellMat, cell]
  exact Fin.sum_univ_eq_sum_range
    (fun k => ((M.getD i.val []).getD k 0 : ZMod p) * (v.getD k 0 : ZMod p)) w

/-- **C76 fails for BabyBear**: the constants of the Goldilocks file, reduced modulo the BabyBear prime, do not
form a maximally diffusing matrix. Two states differing in 5 entries have images differing in 19 entries
only (`5 + 19 = 24 < 25`). -/
theorem C76_babybear_not_max : ¬ MaxDiffusion (cfg64 pBabyBear).applyMds := by
  intro h
  have h0 : ∀ v : Fin (cfg64 pBabyBear).width → ZMod pBabyBear, v ≠ 0 →
      (cfg64 pBabyBear).width + 1 ≤ weight v + weight (Matrix.mulVec (cfg64 pBabyBear).mdsMat v) := by
    intro v hv
    have h1 := h v 0 hv
    rwa [mds_sub, sub_zero] at h1
  rw [mdsMat64] at h0
  have h1 := h0 (fun i : Fin 24 => (badBabyBear.getD i.val 0 : ZMod pBabyBear)) (by
    intro h0
    have h1 : ((1 : Nat) : ZMod pBabyBear) = 0 := congrFun h0 (20 : Fin 24)
    rw [ZMod.natCast_eq_zero_iff] at h1
    exact absurd (Nat.le_of_dvd (by norm_num) h1) (by norm_num))
  have h2 : (cellMat pBabyBear 24 mds64).mulVec (fun i => (badBabyBear.getD i.val 0 : ZMod pBabyBear))
      = fun i => (badBabyBearImage.getD i.val 0 : ZMod pBabyBear) :=
    imageCheck_mulVec (by decide +kernel) rfl
  have h3 : weight (fun i : Fin 24 => (badBabyBear.getD i.val 0 : ZMod pBabyBear)) = 5 := by
    rw [weight_list (by decide +kernel)]
    decide +kernel
  have h4 : weight (fun i : Fin 24 => (badBabyBearImage.getD i.val 0 : ZMod pBabyBear)) = 19 := by
    rw [weight_list (by decide +kernel)]
    decide +kernel
  have h5 : 24 + 1 ≤ weight (fun i : Fin 24 => (badBabyBear.getD i.val 0 : ZMod pBabyBear))
      + weight ((cellMat pBabyBear 24 mds64).mulVec (fun i => (badBabyBear.getD i.val 0 : ZMod pBabyBear))) := h1
  rw [h2, h3, h4] at h5
  omega

/-! ## C77: what the transcript does not separate -/

section C77
variable {p N τ : Nat} {F R : Type} [CommRing F] [CommRing R] [Algebra F R]

/-- The index after absorbing. -/
theorem absorbFold_index {K : Type} [CommRing K] (c : PoseidonConfig K) (hr : 0 < c.rate) (xs : List K)
    (hx : xs ≠ []) (st : Fin c.width → K) (i : Nat) (hi : i ≤ c.rate) :
    (xs.foldl c.absorbStep (st, i)).2 = (i + xs.length - 1) % c.rate + 1 := by
  have h1 : ∀ (p : (Fin c.width → K) × Nat) (x : K), p.2 ≤ c.rate → (c.absorbStep p x).2 = p.2 % c.rate + 1 := by
    intro p x hp
    unfold PoseidonConfig.absorbStep
    by_cases h : p.2 = c.rate
    · simp [h]
    · simp only [if_neg h]
      rw [Nat.mod_eq_of_lt (by omega)]
  have key : ∀ (xs : List K) (p : (Fin c.width → K) × Nat) (x : K), p.2 ≤ c.rate →
      ((x :: xs).foldl c.absorbStep p).2 = (p.2 + xs.length) % c.rate + 1 := by
    intro xs
    induction xs with
    | nil => intro p x hp; simp [h1 p x hp]
    | cons y ys ih =>
      intro p x hp
      rw [List.foldl_cons]
      have hb := Nat.mod_lt p.2 hr
      rw [ih _ _ (by rw [h1 p x hp]; omega), h1 p x hp]
      rw [show p.2 % c.rate + 1 + ys.length = p.2 % c.rate + (ys.length + 1) by omega, Nat.mod_add_mod,
        List.length_cons]
  cases xs with
  | nil => exact absurd rfl hx
  | cons x xs =>
    rw [key xs (st, i) x hi]
    simp only [List.length_cons]
    rw [show i + (xs.length + 1) - 1 = i + xs.length by omega]

theorem squeeze_after_zeros {K : Type} [CommRing K] (c : PoseidonConfig K) (s : Sponge K c.width) (i k n : Nat)
    (hm : s.mode = .absorbing i) (hk : i + k ≤ c.rate) :
    c.squeeze (c.absorb s (List.replicate k 0)) n = c.squeeze s n := by
  cases k with
  | zero => simp [PoseidonConfig.absorb]
  | succ k =>
    have : c.absorb s (List.replicate (k + 1) 0) = ⟨s.state, .absorbing (i + (k + 1))⟩ := by
      unfold PoseidonConfig.absorb
      rw [if_neg (by simp), hm]
      simp only
      rw [absorbFold_block c _ _ _ (by simpa using hk)]
      simp only [List.length_replicate]
      congr 1
      funext j
      split
      · rw [List.getD_eq_getElem?_getD, List.getElem?_replicate]
        split <;> simp
      · rfl
    rw [this]
    unfold PoseidonConfig.squeeze
    rw [hm]

theorem flat_zero {K : Type} [AddCommGroup K] (e : Encoding K F R N τ) :
    e.flat (0 : R) = List.replicate (N * τ) 0 := by
  apply List.eq_replicate_iff.2
  refine ⟨flat_length e 0, fun b hb => ?_⟩
  unfold Encoding.flat at hb
  rw [map_zero, List.mem_flatMap] at hb
  obtain ⟨a, ha, hb⟩ := hb
  rw [List.mem_ofFn] at ha
  obtain ⟨i, rfl⟩ := ha
  unfold Encoding.toBase at hb
  rw [Pi.zero_apply, map_zero, List.mem_ofFn] at hb
  obtain ⟨j, rfl⟩ := hb
  rfl

/-- **C77 fails**: the sponge does not pad its input. If `m ≥ 1` absorbed ring elements leave room for one more in
the current block of a fresh transcript, a further zero element changes neither the challenges nor the bytes
that follow, nor any later state. -/
theorem C77_zero_element (c : PoseidonConfig (ZMod p)) (e : Encoding (ZMod p) F R N τ) (hr : 0 < c.rate)
    (hE : 0 < N * τ) (vs : List R) (hvs : vs ≠ [])
    (hroom : (vs.length * (N * τ) - 1) % c.rate + 1 + N * τ ≤ c.rate) :
    (poseidonT c e).challenge ((poseidonT c e).absorbSlice c.spongeNew (vs ++ [0]))
      = (poseidonT c e).challenge ((poseidonT c e).absorbSlice c.spongeNew vs) ∧
    ∀ n, (poseidonT c e).bytes ((poseidonT c e).absorbSlice c.spongeNew (vs ++ [0])) n
      = (poseidonT c e).bytes ((poseidonT c e).absorbSlice c.spongeNew vs) n := by
  have hlen : (vs.flatMap e.flat).length = vs.length * (N * τ) := by
    rw [List.length_flatMap]
    have : vs.map (fun a => (e.flat a).length) = List.replicate vs.length (N * τ) := by
      simp only [flat_length]
      rw [List.map_const']
    rw [this, List.sum_replicate, smul_eq_mul]
  have hne : vs.flatMap e.flat ≠ [] := by
    intro h
    rw [h] at hlen
    have : 0 < vs.length * (N * τ) := Nat.mul_pos (List.length_pos_iff.2 hvs) hE
    rw [List.length_nil] at hlen
    omega
  have hmode : (c.absorb c.spongeNew (vs.flatMap e.flat)).mode
      = .absorbing ((vs.length * (N * τ) - 1) % c.rate + 1) := by
    unfold PoseidonConfig.absorb
    rw [if_neg (by simpa using hne)]
    simp only [PoseidonConfig.spongeNew]
    rw [absorbFold_index c hr _ hne _ 0 (by omega), hlen, Nat.zero_add]
  have key : ∀ n, c.squeeze ((poseidonT c e).absorbSlice c.spongeNew (vs ++ [0])) n
      = c.squeeze ((poseidonT c e).absorbSlice c.spongeNew vs) n := by
    intro n
    rw [absorbSlice_eq, absorbSlice_eq, List.flatMap_append, ← absorb_append]
    simp only [List.flatMap_cons, List.flatMap_nil, List.append_nil, flat_zero]
    exact squeeze_after_zeros c _ _ _ n hmode hroom
  refine ⟨?_, fun n => ?_⟩
  · simp only [poseidonT] at key ⊢
    rw [key]
  · simp only [poseidonT, PoseidonConfig.squeezeBytes] at key ⊢
    rw [key]

/-- **C77 fails for the Frog ring** (16 prime field elements per ring element, rate 20): absorbing any four ring
elements, and absorbing these and a zero element, give the same challenges. -/
theorem C77_frog (e : Encoding (ZMod pFrog) F R N τ) (hE : N * τ = 16) (a b c d : R) :
    (poseidonT (cfg64 pFrog) e).challenge
        ((poseidonT (cfg64 pFrog) e).absorbSlice (cfg64 pFrog).spongeNew [a, b, c, d, 0])
      = (poseidonT (cfg64 pFrog) e).challenge
        ((poseidonT (cfg64 pFrog) e).absorbSlice (cfg64 pFrog).spongeNew [a, b, c, d]) :=
  (C77_zero_element (cfg64 pFrog) e (by decide) (by omega) [a, b, c, d] (by simp)
    (by rw [hE]; exact (by decide : (4 * 16 - 1) % 20 + 1 + 16 ≤ 20))).1

example : (poseidonT (cfg64 pFrog) (exEnc pFrog 4 4)).challenge
      ((poseidonT (cfg64 pFrog) (exEnc pFrog 4 4)).absorbSlice (cfg64 pFrog).spongeNew [1, 2, 3, 4, 0])
    = (poseidonT (cfg64 pFrog) (exEnc pFrog 4 4)).challenge
      ((poseidonT (cfg64 pFrog) (exEnc pFrog 4 4)).absorbSlice (cfg64 pFrog).spongeNew [1, 2, 3, 4]) :=
  C77_frog (exEnc pFrog 4 4) rfl 1 2 3 4

/-- **C77**, partial: for each of the four rings, changing the absorbed elements within one block, keeping their
number and everything that follows, always changes the state. Missing: inputs of different lengths (false,
`C77_zero_element`), and inputs differing in several blocks (only a hash assumption can exclude collisions). -/
theorem C77_one_block_partial {r : Res (PoseidonConfig (ZMod p))} {c : PoseidonConfig (ZMod p)}
    (h : RingConfig p r c) (s : Sponge (ZMod p) c.width) (i : Nat) (hm : s.mode = .absorbing i)
    (xs ys rest : List (ZMod p)) (hl : xs.length = ys.length) (hr : i + xs.length ≤ c.rate)
    (heq : c.absorb s (xs ++ rest) = c.absorb s (ys ++ rest)) : xs = ys := by
  have := h.prime
  rw [← absorb_append, ← absorb_append] at heq
  have := absorb_injective c h.injective _ _ rest (absorb_mode c s s xs ys hl rfl) heq
  exact C75_block_binding c s i hm xs ys hl hr this

example (heq : (cfg64 pFrog).absorb (cfg64 pFrog).spongeNew ([1, 2] ++ [5])
    = (cfg64 pFrog).absorb (cfg64 pFrog).spongeNew ([1, 3] ++ [5])) : ([1, 2] : List (ZMod pFrog)) = [1, 3] :=
  C77_one_block_partial .frog _ 0 rfl [1, 2] [1, 3] [5] rfl (by decide) heq

end C77

end Verif.Props
