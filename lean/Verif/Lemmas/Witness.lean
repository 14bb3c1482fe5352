import Verif.Lemmas.Comb
import Verif.Spec.Lcccs
import Verif.Model.Decomposition

/-! Helper lemmas for witnesses and balanced decomposition. -/

set_option linter.unusedSectionVars false
set_option linter.unusedSimpArgs false

namespace Verif

open Finset Spec

section
variable {R : Type} [CommRing R] [DecidableEq R]

theorem truncate_numVars (m : Mle R) : m.truncate.numVars = m.numVars := rfl

theorem dropTrailing_getD (l : List R) (i : Nat) :
    ((l.reverse.dropWhile fun x => decide (x = 0)).reverse).getD i 0 = l.getD i 0 := by
  have h := List.takeWhile_append_dropWhile (p := fun x : R => decide (x = 0)) (l := l.reverse)
  have h2 : l = (l.reverse.dropWhile fun x => decide (x = 0)).reverse
      ++ (l.reverse.takeWhile fun x => decide (x = 0)).reverse := by
    rw [← List.reverse_append, h, List.reverse_reverse]
  conv_rhs => rw [h2]
  set a := (l.reverse.dropWhile fun x => decide (x = 0)).reverse with ha
  have hz : ∀ x ∈ (l.reverse.takeWhile fun x => decide (x = 0)).reverse, x = 0 := by
    intro x hx
    rw [List.mem_reverse] at hx
    have := List.all_eq_true.1 (List.all_takeWhile (p := fun x : R => decide (x = 0)) (l := l.reverse)) x hx
    simpa using this
  by_cases hi : i < a.length
  · rw [List.getD_append _ _ _ _ hi]
  · rw [List.getD_append_right _ _ _ _ (by omega), getD_out a (by omega)]
    rw [List.getD_eq_getElem?_getD]
    rcases hq : (l.reverse.takeWhile fun x => decide (x = 0)).reverse[i - a.length]? with _ | x
    · rfl
    · exact (hz x (List.mem_of_getElem? hq)).symm

theorem truncate_get (m : Mle R) (i : Nat) : m.truncate.get i = m.get i := dropTrailing_getD m.evals i

end

variable {Fp F C : Type} {N τ : Nat} [Field Fp] [Field F] [DecidableEq F] [Algebra Fp F] [CommRing C]
  [Algebra Fp C]

theorem clog_nextPow2 (n : Nat) : Nat.clog 2 (nextPow2 n) = Nat.clog 2 n := by
  unfold nextPow2
  rw [Nat.clog_pow 2 _ (by omega)]

theorem slot_lt {j : Nat} (hj : j < τ) (a : Fin N) : j * N + a < τ * N := by
  have : (j + 1) * N ≤ τ * N := Nat.mul_le_mul_right N hj
  have h2 : (j + 1) * N = j * N + N := by ring
  have := a.2
  omega

theorem fhatEntry_apply (rd : RingData Fp F C N τ) (c : C) {j : Nat} (a : Fin N) (h : j * N + a < τ * N) :
    fhatEntry rd c j a = algebraMap Fp F (rd.coeff c ⟨j * N + a, h⟩) := by
  unfold fhatEntry
  rw [dif_pos h]

theorem fhatEntry_zero (rd : RingData Fp F C N τ) (j : Nat) : fhatEntry rd (0 : C) j = 0 := by
  funext a
  unfold fhatEntry
  split
  · simp
  · rfl

theorem getFhat_get (rd : RingData Fp F C N τ) (f : List C) {j : Nat} (hj : j < τ) (i : Nat) :
    ((getFhat rd f).getD j ⟨0, []⟩).get i = fhatEntry rd (f.getD i 0) j := by
  have : (getFhat rd f).getD j ⟨0, []⟩
      = Mle.truncate ⟨Nat.clog 2 (nextPow2 f.length), f.map fun c => fhatEntry rd c j⟩ := by
    simp [getFhat, List.getD_eq_getElem?_getD, hj]
  rw [this, truncate_get]
  change (f.map fun c => fhatEntry rd c j).getD i 0 = _
  rw [List.getD_eq_getElem?_getD, List.getElem?_map, List.getD_eq_getElem?_getD]
  rcases f[i]? with _ | c
  · exact (fhatEntry_zero rd j).symm
  · rfl

/-- The evaluations of the tables of a consistent witness. -/
def vEval (rd : RingData Fp F C N τ) (fc : List C) (r : List (Fin N → F)) (j : Nat) : Fin N → F :=
  mle (fun i => fhatEntry rd (fc.getD i 0) j) r

theorem Spec.WitOK.get {rd : RingData Fp F C N τ} {P : Params} {wl : Nat} {wit : Witness (Fin N → F) C}
    (h : WitOK rd P wl wit) {j : Nat} (hj : j < τ) (i : Nat) :
    (wit.fHat.getD j ⟨0, []⟩).get i = fhatEntry rd (wit.fCoeff.getD i 0) j := by
  funext a
  rw [h.hat j hj i a (slot_lt hj a), fhatEntry_apply]

theorem Spec.WitOK.vEval {rd : RingData Fp F C N τ} {P : Params} {wl : Nat} {wit : Witness (Fin N → F) C}
    (h : WitOK rd P wl wit) (r : List (Fin N → F)) :
    (wit.fHat.map fun m => mle m.get r) = (List.range τ).map (Verif.vEval rd wit.fCoeff r) := by
  apply List.ext_getElem
  · simp [h.hatlen]
  · intro j h1 h2
    have hj : j < τ := by simpa using h2
    have hj' : j < wit.fHat.length := by rw [h.hatlen]; exact hj
    simp only [List.getElem_map, List.getElem_range]
    unfold Verif.vEval
    congr 1
    funext i
    rw [← h.get hj i, List.getD_eq_getElem?_getD, List.getElem?_eq_getElem hj', Option.getD_some]

/-- A witness with tables built by `get_fhat` and `wCcs` from the gadget is consistent. -/
theorem witOK_mk (rd : RingData Fp F C N τ) (P : Params) {wl : Nat} (fc : List C)
    (hf : fc.length = wl * P.L) (w : List (Fin N → F)) (hwl : w.length = wl)
    (hw : ∀ i < wl, w.getD i 0
      = ∑ k ∈ range P.L, (P.B : Fin N → F) ^ k * (fc.map rd.crt).getD (i * P.L + k) 0) :
    WitOK rd P wl ⟨w, fc.map rd.crt, fc, getFhat rd fc⟩ := by
  refine ⟨hf, rfl, by simp [getFhat], ?_, ?_, hwl, hw⟩
  · intro m hm
    obtain ⟨j, _, rfl⟩ := List.mem_map.1 hm
    rw [truncate_numVars]
    change Nat.clog 2 (nextPow2 fc.length) = _
    rw [clog_nextPow2, hf]
  · intro j hj i a h
    change ((getFhat rd fc).getD j ⟨0, []⟩).get i a = _
    rw [getFhat_get rd fc hj, fhatEntry_apply]

/-- The witness built from its coefficient form. -/
def mkWit (rd : RingData Fp F C N τ) (P : Params) (wl : Nat) (fc : List C) : Witness (Fin N → F) C :=
  ⟨(List.range wl).map fun i => ∑ k ∈ range P.L, (P.B : Fin N → F) ^ k
    * (fc.map rd.crt).getD (i * P.L + k) 0, fc.map rd.crt, fc, getFhat rd fc⟩

theorem mkWit_ok (rd : RingData Fp F C N τ) (P : Params) {wl : Nat} (fc : List C)
    (hf : fc.length = wl * P.L) : WitOK rd P wl (mkWit rd P wl fc) :=
  witOK_mk rd P fc hf _ (by simp) fun i hi => by rw [getD_map_range _ _ hi]

theorem fromFCoeff_ok (rd : RingData Fp F C N τ) (P : Params) (hL : 1 ≤ P.L) {wl : Nat} (fc : List C)
    (hf : fc.length = wl * P.L) : Witness.fromFCoeff rd P fc = .ok (mkWit rd P wl fc) := by
  unfold Witness.fromFCoeff
  simp only
  rw [gadgetRecompose_ok hL (fc.map rd.crt) (by rw [List.length_map, hf])]
  rfl

theorem map_crt_symm (rd : RingData Fp F C N τ) (f : List (Fin N → F)) :
    (f.map rd.crt.symm).map rd.crt = f := by
  rw [List.map_map]
  conv_rhs => rw [← List.map_id f]
  apply List.map_congr_left
  intro x _
  simp

theorem fromF_ok (rd : RingData Fp F C N τ) (P : Params) (hL : 1 ≤ P.L) {wl : Nat}
    (f : List (Fin N → F)) (hf : f.length = wl * P.L) :
    ∃ wit, Witness.fromF rd P f = .ok wit ∧ WitOK rd P wl wit ∧ wit.f = f ∧
      wit.fCoeff = f.map rd.crt.symm := by
  unfold Witness.fromF
  simp only
  rw [gadgetRecompose_ok hL f hf]
  refine ⟨_, rfl, ?_, rfl, rfl⟩
  have := witOK_mk rd P (f.map rd.crt.symm) (by rw [List.length_map, hf])
    ((List.range wl).map fun i => ∑ k ∈ range P.L, (P.B : Fin N → F) ^ k * f.getD (i * P.L + k) 0)
    (by simp) (fun i hi => by rw [getD_map_range _ _ hi, map_crt_symm])
  rw [map_crt_symm] at this
  exact this

/-! Digits. -/

/-- The digits returned by a successful decomposition. -/
def dg (rd : RingData Fp F C N τ) (b k : Nat) (c : C) : List C :=
  match rd.dec b k c with
  | .ok ds => ds
  | .error _ => []

/-- Element whose coefficients fit in `k` base-`b` digits. -/
def Fits (rd : RingData Fp F C N τ) (b k : Nat) (c : C) : Prop := ∀ i, Short (reach b k) (rd.coeff c i)

theorem dg_ok (rd : RingData Fp F C N τ) {b k : Nat} (h2 : 2 ≤ b) (he : Even b) (hk : 1 ≤ k) {c : C}
    (h : Fits rd b k c) :
    rd.dec b k c = .ok (dg rd b k c) ∧ (dg rd b k c).length = k ∧
      ∑ i ∈ range k, (b : C) ^ i * (dg rd b k c).getD i 0 = c ∧
      ∀ d ∈ dg rd b k c, ∀ i, Short b (rd.coeff d i) := by
  obtain ⟨ds, h1, h2, h3, h4⟩ := rd.dec_ok b k c h2 he hk h
  have : dg rd b k c = ds := by unfold dg; rw [h1]
  rw [this]
  exact ⟨h1, h2, h3, h4⟩

theorem short_mono {a b : Nat} (h : a ≤ b) {x : Fp} (hx : Short a x) : Short b x := by
  obtain ⟨n, h1, h2⟩ := hx
  exact ⟨n, by omega, h2⟩

theorem short_zero (b : Nat) : Short b (0 : Fp) := ⟨0, by simp, by simp⟩

theorem getD_short (rd : RingData Fp F C N τ) {b : Nat} {l : List C}
    (h : ∀ d ∈ l, ∀ i, Short b (rd.coeff d i)) (k : Nat) : ∀ i, Short b (rd.coeff (l.getD k 0) i) := by
  intro i
  rw [List.getD_eq_getElem?_getD]
  rcases hq : l[k]? with _ | c
  · simp only [Option.getD_none, map_zero]
    exact short_zero b
  · exact h c (List.mem_of_getElem? hq) i

theorem decomposeBVec_ok (rd : RingData Fp F C N τ) (P : Params) (h2 : 2 ≤ P.bSmall) (he : Even P.bSmall)
    (hk : 1 ≤ P.K) (x : List C) (hx : x ≠ []) (h : ∀ c ∈ x, Fits rd P.bSmall P.K c) :
    decomposeBVec rd P x
      = .ok ((List.range P.K).map fun k => x.map fun c => (dg rd P.bSmall P.K c).getD k 0) := by
  unfold decomposeBVec
  rw [mapRes_ok (g := dg rd P.bSmall P.K) fun c hc => (dg_ok rd h2 he hk (h c hc)).1]
  simp only [bind_ok']
  obtain ⟨c, x', rfl⟩ := List.exists_cons_of_ne_nil hx
  have hc := (dg_ok rd h2 he hk (h c (by simp))).2.1
  unfold transposeL
  rw [List.map_cons]
  simp only [hc]
  congr 1
  apply List.map_congr_left
  intro k _
  rw [List.map_cons, List.map_map, List.map_cons]
  rfl

theorem gadgetDecompose_ok (rd : RingData Fp F C N τ) {B L : Nat} (h2 : 2 ≤ B) (he : Even B) (hL : 1 ≤ L)
    (v : List C) (h : ∀ c ∈ v, Fits rd B L c) :
    gadgetDecompose rd B L v = .ok (v.map (dg rd B L)).flatten := by
  unfold gadgetDecompose
  rw [mapRes_ok (g := dg rd B L) fun c hc => (dg_ok rd h2 he hL (h c hc)).1]
  rfl

theorem flatten_getD {α : Type} (d : α) {L : Nat} (ls : List (List α)) (h : ∀ l ∈ ls, l.length = L)
    (i : Nat) {k : Nat} (hk : k < L) : ls.flatten.getD (i * L + k) d = (ls.getD i []).getD k d := by
  induction ls generalizing i with
  | nil => simp
  | cons l ls ih =>
    have hl := h l (by simp)
    cases i with
    | zero =>
      simp only [List.flatten_cons, zero_mul, zero_add, List.getD_cons_zero]
      exact List.getD_append _ _ _ _ (by omega)
    | succ i =>
      simp only [List.flatten_cons, List.getD_cons_succ]
      have e : (i + 1) * L + k = l.length + (i * L + k) := by rw [hl]; ring
      rw [List.getD_append_right _ _ _ _ (by omega), e, Nat.add_sub_cancel_left]
      exact ih (fun l' hl' => h l' (by simp [hl'])) i

theorem flatten_length {α : Type} {L : Nat} (ls : List (List α)) (h : ∀ l ∈ ls, l.length = L) :
    ls.flatten.length = ls.length * L := by
  induction ls with
  | nil => simp
  | cons l ls ih =>
    rw [List.flatten_cons, List.length_append, ih (fun l' hl' => h l' (by simp [hl'])),
      h l (by simp), List.length_cons]
    ring

end Verif
