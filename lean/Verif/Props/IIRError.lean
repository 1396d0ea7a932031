import Verif.Props.FilterError
import Verif.Props.Response
import Verif.Props.PSquareDouble
/-
C154: the rounding error of a stable IIR filter is bounded for ever; that of the summing filter is not.
-/
namespace Verif.Props
open Scalar Impulse Exact

variable {F : Fmt} {p : Nat} {emin : Int} {u η ε : ℝ}

/-- The relative part of the error of one step. -/
def Spec_iirRel (u : ℝ) (n : Nat) : ℝ := (1 + u) ^ (n + 3) - 1

/-- The absolute part of the error of one step. -/
def Spec_iirAbs (u η : ℝ) (n : Nat) (c : ℝ) : ℝ := ((4 * n + 1) * (1 + u) ^ (n + 2) + |c|) * η

/-- The bound on the computed values, if the input is at most `B`. -/
noncomputable def Spec_iirBound (u η : ℝ) (as bs : List ℝ) (c B : ℝ) : ℝ :=
  let n := max as.length bs.length
  ((1 + Spec_iirRel u n) * (B * (as.map abs).sum) + Spec_iirAbs u η n c)
    / (|c| - (1 + Spec_iirRel u n) * (bs.map abs).sum)

/-- The bound on the error of the computed values. -/
noncomputable def Spec_iirDrift (u η : ℝ) (as bs : List ℝ) (c B : ℝ) : ℝ :=
  let n := max as.length bs.length
  (Spec_iirRel u n * (B * (as.map abs).sum + Spec_iirBound u η as bs c B * (bs.map abs).sum) + Spec_iirAbs u η n c)
    / (|c| - (bs.map abs).sum)

theorem sum_abs_nonneg (l : List ℝ) : 0 ≤ (l.map abs).sum :=
  List.sum_nonneg (by intro x hx; obtain ⟨y, -, rfl⟩ := List.mem_map.1 hx; exact abs_nonneg y)

theorem firAbs_le {B : ℝ} (hB0 : 0 ≤ B) (cs xs : List ℝ) (h : ∀ x ∈ xs, |x| ≤ B) :
    Spec_firAbs cs xs ≤ B * (cs.map abs).sum := by
  rw [Spec_firAbs]
  have h' : ∀ x ∈ xs.reverse, |x| ≤ B := fun x hx => h x (List.mem_reverse.1 hx)
  generalize xs.reverse = l at h'
  induction l generalizing cs with
  | nil => simpa using mul_nonneg hB0 (sum_abs_nonneg cs)
  | cons x l ih =>
    cases cs with
    | nil => simp
    | cons c cs =>
      simp only [List.zipWith_cons_cons, List.sum_cons, List.map_cons, abs_mul, mul_add]
      refine add_le_add (mul_le_mul_of_nonneg_right (h' x List.mem_cons_self) (abs_nonneg c)) ?_
      simpa only [abs_mul] using ih cs fun x hx => h' x (List.mem_cons_of_mem _ hx)

/-- An inner product of the newest values within the range. -/
theorem inner_newest_fin (hF : F.Binary p emin) (hE : F.Err u η) {K : ℝ} (hK : IsRep p emin K) (hKf : F.fits K)
    (cs xs : List ℝ) {n : Nat} (hn : cs.length ≤ n) {T : ℝ} (hT : Spec_firAbs cs xs ≤ T)
    (hfit : T + Spec_dotError u η n T ≤ K) :
    ∃ r : ℝ, innerProduct (ofNat 0 : X F) ((xs.reverse.take cs.length).map X.fin) (cs.map X.fin) = some (X.fin r)
      ∧ |r - Spec.fir cs xs| ≤ Spec_dotError u η n T := by
  have n1 : 0 ≤ Spec_firAbs cs xs := zipAbs_nonneg _ _
  have hu := hE.u_nonneg
  have he := hE.eta_nonneg
  have hm : Spec_dotError u η (0 + (xs.reverse.take cs.length).length) (Spec_firAbs cs xs) ≤ Spec_dotError u η n T := by
    refine (dotError_mono hu he (by simp; omega) n1).trans (add_le_add ?_ le_rfl)
    exact mul_le_mul_of_nonneg_left hT (by linarith [one_le_pow₀ (M₀ := ℝ) (n := n + 1) (show 1 ≤ 1 + u by linarith)])
  obtain ⟨r, hr, h⟩ := innerProduct_err (k := 0) (a := 0) (s := 0) (T := 0) hF hE hK hKf
    (l := xs.reverse.take cs.length) (cs := cs) (by simp) (by simp) (by simp [Spec_dotError])
    (by rw [zipWith_take_abs, zero_add]; exact (add_le_add hT hm).trans hfit)
  refine ⟨r, by rw [hF.ofNat_zero]; exact hr, ?_⟩
  rw [zipWith_take, zipWith_take_abs, zero_add (List.sum _), zero_add (List.sum _), ← Spec.fir_eq] at h
  exact h.trans hm

/-- The two inner products of a step are within the range. -/
theorem iir_range (hu : 0 ≤ u) (he : 0 ≤ η) {n : Nat} {c S T N : ℝ} (hS0 : 0 ≤ S) (hT0 : 0 ≤ T)
    (hM : (1 + Spec_iirRel u n) * (S + T) + Spec_iirAbs u η n c ≤ N) :
    S + Spec_dotError u η n S ≤ N ∧ T + Spec_dotError u η n T ≤ N := by
  have hcp := abs_nonneg c
  have q1 : (1 : ℝ) ≤ (1 + u) ^ n := one_le_pow₀ (by linarith)
  have p1 : (1 + u) ^ (n + 1) = (1 + u) * (1 + u) ^ n := by ring
  have p2 : (1 + u) ^ (n + 2) = (1 + u) * ((1 + u) * (1 + u) ^ n) := by ring
  have p3 : (1 + u) ^ (n + 3) = (1 + u) * ((1 + u) * ((1 + u) * (1 + u) ^ n)) := by ring
  have m1 : (1 + u) ^ (n + 1) ≤ (1 + u) ^ (n + 2) := pow_le_pow_right₀ (by linarith) (by omega)
  have m0 : (1 + u) ^ n ≤ (1 + u) ^ (n + 1) := pow_le_pow_right₀ (by linarith) (by omega)
  have m2 : (1 + u) ^ (n + 2) ≤ (1 + u) ^ (n + 3) := pow_le_pow_right₀ (by linarith) (by omega)
  have hrel : 1 + Spec_iirRel u n = (1 + u) ^ (n + 3) := by rw [Spec_iirRel]; ring
  have habs : 4 * n * (1 + u) ^ (n + 1) * η + η ≤ Spec_iirAbs u η n c := by
    rw [Spec_iirAbs, show 4 * (n : ℝ) * (1 + u) ^ (n + 1) * η + η = (4 * n * (1 + u) ^ (n + 1) + 1) * η by ring]
    refine mul_le_mul_of_nonneg_right ?_ he
    have : (n : ℝ) * (1 + u) ^ (n + 1) ≤ n * (1 + u) ^ (n + 2) := mul_le_mul_of_nonneg_left m1 (by positivity)
    linarith
  have hn0 : 0 ≤ 4 * (n : ℝ) * (1 + u) ^ n * η := by positivity
  have hn1 : 4 * (n : ℝ) * (1 + u) ^ n * η ≤ 4 * n * (1 + u) ^ (n + 1) * η :=
    mul_le_mul_of_nonneg_right (mul_le_mul_of_nonneg_left m0 (by positivity)) he
  have hD : ∀ s : ℝ, s + Spec_dotError u η n s = (1 + u) ^ (n + 1) * s + 4 * n * (1 + u) ^ n * η / 2 := by
    intro s; rw [Spec_dotError]; ring
  have g1 := mul_le_mul_of_nonneg_right (m1.trans m2) hS0
  have g2 := mul_le_mul_of_nonneg_right (m1.trans m2) hT0
  have g3 : 0 ≤ (1 + u) ^ (n + 3) * S := by positivity
  have g4 : 0 ≤ (1 + u) ^ (n + 3) * T := by positivity
  rw [hrel, mul_add] at hM
  exact ⟨by rw [hD]; linarith, by rw [hD]; linarith⟩

/-- The division of one step within the range. -/
theorem iir_div_fin (hF : F.Binary p emin) (hE : F.Err u η) {K : ℝ} (hK : IsRep p emin K) (hKf : F.fits K)
    {n : Nat} {c : ℝ} (hc : c ≠ 0) {A B S T M a b : ℝ} (hfa : |A| ≤ S) (hfb : |B| ≤ T)
    (ha2 : |a - A| ≤ Spec_dotError u η n S) (hb2 : |b - B| ≤ Spec_dotError u η n T)
    (hM : (1 + Spec_iirRel u n) * (S + T) + Spec_iirAbs u η n c ≤ |c| * M) (hcM : |c| * M ≤ K) (hMK : M ≤ K) :
    ∃ y : ℝ, (X.fin a - X.fin b) / X.fin c = (X.fin y : X F)
      ∧ |c * y - (A - B)| ≤ Spec_iirRel u n * (S + T) + Spec_iirAbs u η n c ∧ |y| ≤ M := by
  have hu := hE.u_nonneg
  have he := hE.eta_nonneg
  have hS0 : 0 ≤ S := (abs_nonneg _).trans hfa
  have hT0 : 0 ≤ T := (abs_nonneg _).trans hfb
  have hcp : 0 < |c| := abs_pos.2 hc
  have q1 : (1 : ℝ) ≤ (1 + u) ^ n := one_le_pow₀ (by linarith)
  have p1 : (1 + u) ^ (n + 1) = (1 + u) * (1 + u) ^ n := by ring
  have p2 : (1 + u) ^ (n + 2) = (1 + u) * ((1 + u) * (1 + u) ^ n) := by ring
  have p3 : (1 + u) ^ (n + 3) = (1 + u) * ((1 + u) * ((1 + u) * (1 + u) ^ n)) := by ring
  have m1 : (1 + u) ^ (n + 1) ≤ (1 + u) ^ (n + 2) := pow_le_pow_right₀ (by linarith) (by omega)
  have m0 : (1 + u) ^ n ≤ (1 + u) ^ (n + 1) := pow_le_pow_right₀ (by linarith) (by omega)
  have m2 : (1 + u) ^ (n + 2) ≤ (1 + u) ^ (n + 3) := pow_le_pow_right₀ (by linarith) (by omega)
  have hrel : 1 + Spec_iirRel u n = (1 + u) ^ (n + 3) := by rw [Spec_iirRel]; ring
  have habs : 4 * n * (1 + u) ^ (n + 1) * η + η ≤ Spec_iirAbs u η n c := by
    rw [Spec_iirAbs, show 4 * (n : ℝ) * (1 + u) ^ (n + 1) * η + η = (4 * n * (1 + u) ^ (n + 1) + 1) * η by ring]
    refine mul_le_mul_of_nonneg_right ?_ he
    have : (n : ℝ) * (1 + u) ^ (n + 1) ≤ n * (1 + u) ^ (n + 2) := mul_le_mul_of_nonneg_left m1 (by positivity)
    linarith
  have hn0 : 0 ≤ 4 * (n : ℝ) * (1 + u) ^ n * η := by positivity
  have hn1 : 4 * (n : ℝ) * (1 + u) ^ n * η ≤ 4 * n * (1 + u) ^ (n + 1) * η :=
    mul_le_mul_of_nonneg_right (mul_le_mul_of_nonneg_left m0 (by positivity)) he
  have hD : ∀ s : ℝ, s + Spec_dotError u η n s = (1 + u) ^ (n + 1) * s + 4 * n * (1 + u) ^ n * η / 2 := by
    intro s; rw [Spec_dotError]; ring
  have g1 := mul_le_mul_of_nonneg_right (m1.trans m2) hS0
  have g2 := mul_le_mul_of_nonneg_right (m1.trans m2) hT0
  have g3 : 0 ≤ (1 + u) ^ (n + 3) * S := by positivity
  have g4 : 0 ≤ (1 + u) ^ (n + 3) * T := by positivity
  rw [hrel, mul_add] at hM
  have hab : |a - b| ≤ (1 + u) ^ (n + 1) * S + (1 + u) ^ (n + 1) * T + 4 * n * (1 + u) ^ n * η := by
    have h1 : |a| ≤ S + Spec_dotError u η n S := by
      have := abs_add_le (A) (a - A)
      rw [add_sub_cancel] at this; linarith
    have h2 : |b| ≤ T + Spec_dotError u η n T := by
      have := abs_add_le (B) (b - B)
      rw [add_sub_cancel] at this; linarith
    rw [hD] at h1 h2
    linarith [abs_sub a b]
  have hd : |F.rnd (a - b)| ≤ |c| * M := by
    have h1 := hE.err (a - b)
    have h2 := abs_add_le (a - b) (F.rnd (a - b) - (a - b))
    rw [add_sub_cancel] at h2
    have h3 := mul_le_mul_of_nonneg_left hab (show 0 ≤ 1 + u by linarith)
    have e : (1 + u) * ((1 + u) ^ (n + 1) * S + (1 + u) ^ (n + 1) * T + 4 * n * (1 + u) ^ n * η)
        = (1 + u) ^ (n + 2) * S + (1 + u) ^ (n + 2) * T + 4 * n * (1 + u) ^ (n + 1) * η := by rw [p1, p2]; ring
    rw [e] at h3
    have g5 := mul_le_mul_of_nonneg_right m2 hS0
    have g6 := mul_le_mul_of_nonneg_right m2 hT0
    linarith
  have hdc : |F.rnd (a - b) / c| ≤ M := by
    rw [abs_div, div_le_iff₀ hcp, mul_comm]; exact hd
  have hstep := iir_step hE (n := n) hc hfa hfb ha2 hb2 rfl
  refine ⟨F.rnd (F.rnd (a - b) / c), ?_, ?_, ?_⟩
  · rw [X.sub_fin, round_within hF hK hKf (by linarith), X.div_fin_of_ne _ hc, round_within hF hK hKf (hdc.trans hMK)]
  · exact hstep
  · have h1 : |c| * |F.rnd (F.rnd (a - b) / c)| ≤ |c| * M := by
      rw [← abs_mul]
      have := abs_add_le (A - B)
        (c * F.rnd (F.rnd (a - b) / c) - (A - B))
      rw [add_sub_cancel] at this
      have h3 := abs_sub (A) (B)
      have e : Spec_iirError u η n c (S + T) = (1 + u) ^ (n + 3) * S + (1 + u) ^ (n + 3) * T - (S + T) + Spec_iirAbs u η n c := by
        rw [Spec_iirError, Spec_iirAbs]; ring
      rw [e] at hstep
      linarith
    exact le_of_mul_le_mul_left h1 hcp

/-- One step within the range. -/
theorem iir_push_fin (hF : F.Binary p emin) (hE : F.Err u η) {K : ℝ} (hK : IsRep p emin K) (hKf : F.fits K)
    {as bs : List ℝ} {n : Nat} (hna : as.length ≤ n) (hnb : bs.length ≤ n) {c : ℝ} (hc : c ≠ 0) {xs ys : List ℝ} {S T M : ℝ}
    (hS : Spec_firAbs as xs ≤ S) (hT : Spec_firAbs bs ys ≤ T)
    (hM : (1 + Spec_iirRel u n) * (S + T) + Spec_iirAbs u η n c ≤ |c| * M) (hcM : |c| * M ≤ K) (hMK : M ≤ K) :
    ∃ ff fb : X F, ∃ y : ℝ,
      innerProduct (ofNat 0 : X F) ((xs.reverse.take as.length).map X.fin) (as.map X.fin) = some ff
      ∧ innerProduct (ofNat 0 : X F) ((ys.reverse.take bs.length).map X.fin) (bs.map X.fin) = some fb
      ∧ (ff - fb) / X.fin c = X.fin y
      ∧ |c * y - (Spec.fir as xs - Spec.fir bs ys)| ≤ Spec_iirRel u n * (S + T) + Spec_iirAbs u η n c
      ∧ |y| ≤ M := by
  have hfa : |Spec.fir as xs| ≤ S := (by rw [Spec.fir_eq]; exact abs_zip_le _ _ : _ ≤ Spec_firAbs as xs).trans hS
  have hfb : |Spec.fir bs ys| ≤ T := (by rw [Spec.fir_eq]; exact abs_zip_le _ _ : _ ≤ Spec_firAbs bs ys).trans hT
  obtain ⟨r1, r2⟩ := iir_range hE.u_nonneg hE.eta_nonneg ((abs_nonneg _).trans hfa) ((abs_nonneg _).trans hfb) (hM.trans hcM)
  obtain ⟨a, ha1, ha2⟩ := inner_newest_fin hF hE hK hKf as xs hna hS r1
  obtain ⟨b, hb1, hb2⟩ := inner_newest_fin hF hE hK hKf bs ys hnb hT r2
  obtain ⟨y, h⟩ := iir_div_fin hF hE hK hKf hc hfa hfb ha2 hb2 hM hcM hMK
  exact ⟨X.fin a, X.fin b, y, ha1, hb1, h⟩

theorem isIIR_length {as bs : List ℝ} {c : ℝ} {xs ys : List ℝ} (h : Spec.IsIIR as bs c xs ys) : ys.length = xs.length := h.1

/-- The error of a stable filter, from the error of one step: `R is ys` says that the filter is in the state with outputs
`ys` after the inputs `is`. -/
theorem iir_stable_core (hE : F.Err u η) {ι : Type} (val : ι → ℝ) (R : List ι → List ℝ → Prop) {as bs : List ℝ}
    {c B : ℝ} (hB0 : 0 ≤ B) (hst : (1 + Spec_iirRel u (max as.length bs.length)) * (bs.map abs).sum < |c|) (h0 : R [] [])
    (hstep : ∀ (is : List ι) (i : ι) (ys : List ℝ), R is ys → ∀ {S T : ℝ}, Spec_firAbs as ((is ++ [i]).map val) ≤ S → Spec_firAbs bs ys ≤ T →
      (1 + Spec_iirRel u (max as.length bs.length)) * (S + T) + Spec_iirAbs u η (max as.length bs.length) c ≤ |c| * Spec_iirBound u η as bs c B →
      ∃ y : ℝ, R (is ++ [i]) (ys ++ [y])
        ∧ |c * y - (Spec.fir as ((is ++ [i]).map val) - Spec.fir bs ys)|
            ≤ Spec_iirRel u (max as.length bs.length) * (S + T) + Spec_iirAbs u η (max as.length bs.length) c
        ∧ |y| ≤ Spec_iirBound u η as bs c B)
    (is : List ι) (hx : ∀ i ∈ is, |val i| ≤ B) :
    ∃ ys zs : List ℝ, ys.length = is.length ∧ Spec.IsIIR as bs c (is.map val) zs ∧ R is ys
      ∧ (∀ y ∈ ys, |y| ≤ Spec_iirBound u η as bs c B)
      ∧ ∀ e ∈ List.zipWith (fun y z => 1 * y + (-1) * z) ys zs, |e| ≤ Spec_iirDrift u η as bs c B := by
  have hu := hE.u_nonneg
  have he := hE.eta_nonneg
  have hA0 := sum_abs_nonneg as
  have hb0 := sum_abs_nonneg bs
  set n := max as.length bs.length with hn
  have hrel : 0 ≤ Spec_iirRel u n := by
    rw [Spec_iirRel]; linarith [one_le_pow₀ (M₀ := ℝ) (n := n + 3) (show 1 ≤ 1 + u by linarith)]
  have habs : 0 ≤ Spec_iirAbs u η n c := by rw [Spec_iirAbs]; positivity
  have hst' : (bs.map abs).sum < |c| := by nlinarith
  have hc : c ≠ 0 := by rintro rfl; rw [abs_zero] at hst'; linarith
  have hd1 : 0 < |c| - (1 + Spec_iirRel u n) * (bs.map abs).sum := by linarith
  have hd2 : 0 < |c| - (bs.map abs).sum := by linarith
  set M := Spec_iirBound u η as bs c B with hMd
  have hMe : M * (|c| - (1 + Spec_iirRel u n) * (bs.map abs).sum)
      = (1 + Spec_iirRel u n) * (B * (as.map abs).sum) + Spec_iirAbs u η n c := div_mul_cancel₀ _ hd1.ne'
  have hM0 : 0 ≤ M := by
    have : 0 ≤ (1 + Spec_iirRel u n) * (B * (as.map abs).sum) + Spec_iirAbs u η n c := by positivity
    exact div_nonneg this hd1.le
  set R := Spec_iirRel u n * (B * (as.map abs).sum + M * (bs.map abs).sum) + Spec_iirAbs u η n c with hR
  have hR0 : 0 ≤ R := by positivity
  set D := Spec_iirDrift u η as bs c B with hDd
  have hDe : D * (|c| - (bs.map abs).sum) = R := div_mul_cancel₀ _ hd2.ne'
  have hD0 : 0 ≤ D := div_nonneg hR0 hd2.le
  induction is using List.reverseRecOn with
  | nil => exact ⟨[], [], rfl, Spec.isIIR_nil _ _ _, h0, by simp, by simp⟩
  | append_singleton is i ih =>
    obtain ⟨ys, zs, hl, hz, hs, hyM, hyD⟩ := ih fun j h => hx j (by simp [h])
    have hlz : zs.length = (is.map val).length := hz.1
    rw [List.length_map] at hlz
    have hx' : ∀ v ∈ (is ++ [i]).map val, |v| ≤ B := by
      intro v hv
      obtain ⟨j, hj, rfl⟩ := List.mem_map.1 hv
      exact hx j hj
    obtain ⟨y, hs', h4, h5⟩ := hstep is i ys hs (firAbs_le hB0 as _ hx') (firAbs_le hM0 bs ys hyM) (by linarith)
    rw [List.map_append, List.map_singleton] at h4 ⊢
    refine ⟨ys ++ [y], zs ++ [(Spec.fir as (is.map val ++ [val i]) - Spec.fir bs zs) / c], by simp [hl], Spec.isIIR_snoc hc hz (val i), hs', ?_, ?_⟩
    · intro v hv
      rcases List.mem_append.1 hv with hv | hv
      · exact hyM v hv
      · rw [List.mem_singleton.1 hv]; exact h5
    · intro e hev
      rw [List.zipWith_append (by omega)] at hev
      rcases List.mem_append.1 hev with hev | hev
      · exact hyD e hev
      · simp only [List.zipWith_cons_cons, List.zipWith_nil_left, List.mem_singleton] at hev
        have hf : |Spec.fir bs (List.zipWith (fun y z => 1 * y + (-1) * z) ys zs)| ≤ D * (bs.map abs).sum :=
          Spec.fir_abs_le hD0 fun v hv => hyD v (List.mem_of_mem_drop hv)
        rw [Spec.fir_linear _ _ _ (by omega)] at hf
        have hce : |c| * |e| ≤ |c| * D := by
          rw [← abs_mul, show c * e = (c * y - (Spec.fir as (is.map val ++ [val i]) - Spec.fir bs ys))
            - (1 * Spec.fir bs ys + -1 * Spec.fir bs zs) by rw [hev]; field_simp; ring]
          have := abs_sub (c * y - (Spec.fir as (is.map val ++ [val i]) - Spec.fir bs ys)) (1 * Spec.fir bs ys + -1 * Spec.fir bs zs)
          linarith
        exact le_of_mul_le_mul_left hce (abs_pos.2 hc)

/-- All computed values of a stable filter. -/
theorem iir_stable (hF : F.Binary p emin) (hE : F.Err u η) {K : ℝ} (hK : IsRep p emin K) (hKf : F.fits K)
    {as bs : List ℝ} (ha : as ≠ []) (hb : bs ≠ []) {c B : ℝ} (hB0 : 0 ≤ B)
    (hst : (1 + Spec_iirRel u (max as.length bs.length)) * (bs.map abs).sum < |c|)
    (hcM : |c| * Spec_iirBound u η as bs c B ≤ K) (hMK : Spec_iirBound u η as bs c B ≤ K) (xs : List ℝ) (hx : ∀ x ∈ xs, |x| ≤ B) :
    ∃ ys zs : List ℝ, ys.length = xs.length ∧ Spec.IsIIR as bs c xs zs
      ∧ (xs.map X.fin).foldl (fun s x => s.bind (Infinite.push · x)) (some (Infinite.init (as.map X.fin) (bs.map X.fin) (X.fin c)))
        = some { inputWindow := ⟨as.length, (xs.reverse.take as.length).map X.fin⟩
                 inputCoefficients := as.map X.fin
                 outputWindow := ⟨bs.length, (ys.reverse.take bs.length).map X.fin⟩
                 outputScale := (X.fin c : X F)
                 outputCoefficients := bs.map X.fin }
      ∧ (∀ y ∈ ys, |y| ≤ Spec_iirBound u η as bs c B)
      ∧ ∀ e ∈ List.zipWith (fun y z => 1 * y + (-1) * z) ys zs, |e| ≤ Spec_iirDrift u η as bs c B := by
  have hP : 1 ≤ as.length := List.length_pos_iff.2 ha
  have hQ : 1 ≤ bs.length := List.length_pos_iff.2 hb
  have hc : c ≠ 0 := by
    rintro rfl
    rw [abs_zero] at hst
    have := sum_abs_nonneg bs
    have : 0 ≤ 1 + Spec_iirRel u (max as.length bs.length) := by
      rw [Spec_iirRel, add_sub_cancel]; have := hE.u_nonneg; positivity
    nlinarith
  obtain ⟨ys, zs, h1, h2, h3, h4, h5⟩ := iir_stable_core hE id
    (fun xs ys => (xs.map X.fin).foldl (fun s x => s.bind (Infinite.push · x)) (some (Infinite.init (as.map X.fin) (bs.map X.fin) (X.fin c)))
        = some { inputWindow := ⟨as.length, (xs.reverse.take as.length).map X.fin⟩
                 inputCoefficients := as.map X.fin
                 outputWindow := ⟨bs.length, (ys.reverse.take bs.length).map X.fin⟩
                 outputScale := (X.fin c : X F)
                 outputCoefficients := bs.map X.fin }) hB0 hst (by simp [Infinite.init, Deque.init])
    (by
      intro xs x ys hs S T hS hT hM
      rw [List.map_id] at hS ⊢
      obtain ⟨ff, fb, y, h1, h2, h3, h4, h5⟩ := iir_push_fin hF hE hK hKf (le_max_left _ _) (le_max_right _ _) hc hS hT hM hcM hMK
      have hd := pushFront_take (P := as.length) hP (xs.reverse.map (X.fin : ℝ → X F)) (X.fin x)
      have hd2' := fun z => pushFront_take (P := bs.length) hQ (ys.reverse.map (X.fin : ℝ → X F)) z
      simp only [← List.map_cons, ← List.map_take] at hd hd2'
      refine ⟨y, ?_, h4, h5⟩
      rw [List.map_append, List.foldl_append, hs]
      show Infinite.push _ (X.fin x) = _
      rw [List.reverse_append, List.reverse_singleton, List.singleton_append] at h1
      simp only [Infinite.push, hd, h1, h2, Option.bind_eq_bind, Option.bind_some, hd2']
      rw [h3]
      simp [List.map_take]) xs hx
  rw [List.map_id] at h2
  exact ⟨ys, zs, h1, h2, h3, h4, h5⟩

/-- C154: after any history of a stable filter, the value is a finite number within the bound, and its distance from
the exact value has a bound that does not depend on the number of values. -/
theorem C154_stable (hF : F.Binary p emin) (hE : F.Err u η) {K : ℝ} (hK : IsRep p emin K) (hKf : F.fits K)
    {as bs : List ℝ} (ha : as ≠ []) (hb : bs ≠ []) {c B : ℝ} (hB0 : 0 ≤ B)
    (hst : (1 + Spec_iirRel u (max as.length bs.length)) * (bs.map abs).sum < |c|)
    (hcM : |c| * Spec_iirBound u η as bs c B ≤ K) (hMK : Spec_iirBound u η as bs c B ≤ K)
    (ops : List (Op ℝ)) (hx : ∀ x ∈ sinceClear ops, |x| ≤ B) :
    ∃ (s : Impulse.Infinite (X F)) (t : Impulse.Infinite (E ε)) (y z : ℝ),
      Impulse.Infinite.run (as.map X.fin) (bs.map X.fin) (X.fin c) (finOps ops) = some s ∧ s.value = X.fin y
      ∧ Impulse.Infinite.run (as.map X.fin) (bs.map X.fin) (X.fin c) (finOps ops) = some t ∧ t.value = X.fin z
      ∧ |y| ≤ Spec_iirBound u η as bs c B ∧ |y - z| ≤ Spec_iirDrift u η as bs c B := by
  have hb0 := sum_abs_nonneg bs
  have hu := hE.u_nonneg
  have hrel : 0 ≤ Spec_iirRel u (max as.length bs.length) := by
    rw [Spec_iirRel]
    linarith [one_le_pow₀ (M₀ := ℝ) (n := max as.length bs.length + 3) (show 1 ≤ 1 + u by linarith)]
  have hc : c ≠ 0 := by rintro rfl; rw [abs_zero] at hst; nlinarith
  obtain ⟨ys, zs, hl, hz, hs, hyM, hyD⟩ := iir_stable hF hE hK hKf ha hb hB0 hst hcM hMK (sinceClear ops) hx
  obtain ⟨t, zs', ht, hz', -, hv⟩ := C52_iir (ε := ε) ha hb hc ops
  obtain rfl := Spec.isIIR_unique hc hz hz'
  rw [← sinceClear_finOps, ← (Infinite.run_eq (by simpa using ha) (by simpa using hb) _ _).1] at hs
  have hlz := hz.1
  obtain ⟨q, hq⟩ : ∃ q, bs.length = q + 1 := ⟨bs.length - 1, by have := List.length_pos_iff.2 hb; omega⟩
  have hM0 : 0 ≤ Spec_iirBound u η as bs c B := by
    have := sum_abs_nonneg as
    have := hE.eta_nonneg
    refine div_nonneg ?_ (by linarith)
    have : 0 ≤ Spec_iirAbs u η (max as.length bs.length) c := by rw [Spec_iirAbs]; positivity
    positivity
  refine ⟨_, t, ys.getLastD 0, zs.getLastD 0, hs, ?_, ht, hv, ?_⟩
  · rcases List.eq_nil_or_concat ys with rfl | ⟨l, y, rfl⟩
    · simp [Impulse.Infinite.value, hF.ofNat_zero]
    · simp [Impulse.Infinite.value, hq]
  · rcases List.eq_nil_or_concat ys with rfl | ⟨l, y, rfl⟩
    · obtain rfl : zs = [] := List.length_eq_zero_iff.1 (by rw [hlz, ← hl]; rfl)
      refine ⟨by simpa using hM0, ?_⟩
      have := hE.eta_nonneg
      have := sum_abs_nonneg as
      have : 0 ≤ Spec_iirAbs u η (max as.length bs.length) c := by rw [Spec_iirAbs]; positivity
      simp only [List.getLastD_nil, sub_self, abs_zero]
      exact div_nonneg (by positivity) (by nlinarith)
    · rcases List.eq_nil_or_concat zs with rfl | ⟨l', z, rfl⟩
      · rw [← hl] at hlz; simp at hlz
      · simp only [List.concat_eq_append] at *
        rw [List.getLastD_concat, List.getLastD_concat]
        refine ⟨hyM y (by simp), ?_⟩
        have hll : l.length = l'.length := by rw [← hl] at hlz; simp at hlz; omega
        have := hyD (y - z) (by
          rw [List.zipWith_append hll]
          simp; right; ring)
        exact this

/-- The filter `y_n = x_n + y_{n-1} / 2` with at most 1000 as input: the error is at most `2^-38`, for ever. -/
example (ops : List (Op ℝ)) (hx : ∀ x ∈ sinceClear ops, |x| ≤ 1000) :
    ∃ (s : Impulse.Infinite (X binary64)) (t : Impulse.Infinite (E 0)) (y z : ℝ),
      Impulse.Infinite.run [X.fin 1] [X.fin (-1 / 2)] (X.fin 1) (finOps ops) = some s ∧ s.value = X.fin y
      ∧ Impulse.Infinite.run [X.fin 1] [X.fin (-1 / 2)] (X.fin 1) (finOps ops) = some t ∧ t.value = X.fin z
      ∧ |y| ≤ 2001 ∧ |y - z| ≤ 2 ^ (-38 : Int) := by
  have hη : (2 : ℝ) ^ (-1075 : Int) ≤ 2 ^ (-100 : Int) := zpow_le_zpow_right₀ (by norm_num) (by norm_num)
  have hη0 : (0 : ℝ) ≤ 2 ^ (-1075 : Int) := by positivity
  have hK := binary64_int (n := 10000) (by norm_num)
  have hb := binary64_err
  have hab : |(-1 / 2 : ℝ)| = 1 / 2 := by rw [abs_of_neg] <;> norm_num
  have hrel : Spec_iirRel (2 ^ (-53 : Int)) 1 ≤ 2 ^ (-50 : Int) := by norm_num [Spec_iirRel]
  have hrel0 : 0 ≤ Spec_iirRel (2 ^ (-53 : Int)) 1 := by norm_num [Spec_iirRel]
  have habs : Spec_iirAbs (2 ^ (-53 : Int)) (2 ^ (-1075 : Int)) 1 1 ≤ 2 ^ (-90 : Int) := by
    rw [Spec_iirAbs]
    refine (mul_le_mul_of_nonneg_left hη (by positivity)).trans ?_
    norm_num
  have habs0 : 0 ≤ Spec_iirAbs (2 ^ (-53 : Int)) (2 ^ (-1075 : Int)) 1 1 := by rw [Spec_iirAbs]; positivity
  have hM : Spec_iirBound (2 ^ (-53 : Int)) (2 ^ (-1075 : Int)) [1] [-1 / 2] 1 1000 ≤ 2001 := by
    simp only [Spec_iirBound, List.length_cons, List.length_nil, List.map_cons, List.map_nil, List.sum_cons, List.sum_nil]
    rw [show Max.max (0 + 1) (0 + 1) = 1 from rfl, hab]
    generalize Spec_iirRel _ 1 = r at *
    generalize Spec_iirAbs _ _ 1 1 = a at *
    norm_num at hrel habs ⊢
    rw [div_le_iff₀ (by linarith)]
    linarith
  have hD : Spec_iirDrift (2 ^ (-53 : Int)) (2 ^ (-1075 : Int)) [1] [-1 / 2] 1 1000 ≤ 2 ^ (-38 : Int) := by
    rw [Spec_iirDrift]
    generalize Spec_iirBound _ _ [1] [-1 / 2] 1 1000 = m at *
    simp only [List.length_cons, List.length_nil, List.map_cons, List.map_nil, List.sum_cons, List.sum_nil]
    rw [show Max.max (0 + 1) (0 + 1) = 1 from rfl, hab]
    generalize Spec_iirRel _ 1 = r at *
    generalize Spec_iirAbs _ _ 1 1 = a at *
    norm_num at hrel habs ⊢
    rw [div_le_iff₀ (by norm_num)]
    have := mul_le_mul_of_nonneg_left (show 1000 + m * (1 / 2) ≤ 2001 by linarith) hrel0
    linarith
  obtain ⟨s, t, y, z, h1, h2, h3, h4, h5, h6⟩ := C154_stable (ε := 0) binary64_binary binary64_err hK.1 hK.2
    (as := [1]) (bs := [-1 / 2]) (by simp) (by simp) (c := 1) (B := 1000) (by norm_num)
    (by
      simp only [List.length_cons, List.length_nil, List.map_cons, List.map_nil, List.sum_cons, List.sum_nil, hab]
      rw [show Max.max (0 + 1) (0 + 1) = 1 from rfl]
      generalize Spec_iirRel _ 1 = r at *
      norm_num at hrel ⊢
      linarith)
    (by rw [abs_one, one_mul]; push_cast; linarith) (by push_cast; linarith) ops hx
  exact ⟨s, t, y, z, h1, h2, h3, h4, h5.trans hM, h6.trans hD⟩

/-- The summing filter in any arithmetic. -/
theorem summing_run {α : Type} [Scalar α] (one mone : α) (v : Nat → α) (h0 : v 0 = ofNat 0)
    (h1 : ((ofNat 0 + one * one) - ofNat 0) / one = v 1)
    (hs : ∀ k, ((ofNat 0 + one * one) - (ofNat 0 + v (k + 1) * mone)) / one = v (k + 2)) (k : Nat) :
    ∃ s : Impulse.Infinite α, Impulse.Infinite.run [one] [mone] one ((List.replicate k one).map .push) = some s
      ∧ s.value = v k := by
  have key : ∀ k, Impulse.Infinite.run [one] [mone] one ((List.replicate (k + 1) one).map .push)
      = some { inputWindow := ⟨1, [one]⟩, inputCoefficients := [one], outputWindow := ⟨1, [v (k + 1)]⟩, outputScale := one,
               outputCoefficients := [mone] } := by
    intro k
    induction k with
    | zero =>
      rw [← h1]
      rfl
    | succ k ih =>
      rw [List.replicate_succ', List.map_append, Impulse.Infinite.run, runOps_append]
      rw [Impulse.Infinite.run] at ih
      rw [ih, ← hs]
      rfl
  cases k with
  | zero => exact ⟨_, rfl, h0.symm⟩
  | succ k => exact ⟨_, key k, rfl⟩

/-- C154 needs the condition: the filter `y_n = x_n + y_{n-1}` with the input 1 stays at `2^53`; the error grows for
ever. -/
theorem C154_summing (k : Nat) :
    ∃ (s : Impulse.Infinite (X binary64)) (t : Impulse.Infinite (E ε)),
      Impulse.Infinite.run [X.fin 1] [X.fin (-1)] (X.fin 1) (finOps ((List.replicate k 1).map .push)) = some s
      ∧ s.value = X.fin ((min k (2 ^ 53) : Nat) : ℝ)
      ∧ Impulse.Infinite.run [X.fin 1] [X.fin (-1)] (X.fin 1) (finOps ((List.replicate k 1).map .push)) = some t
      ∧ t.value = X.fin (k : ℝ) := by
  have o : (ofNat 0 : X binary64) = X.fin 0 := binary64_binary.ofNat_zero
  have r : ∀ n : Nat, n ≤ 2 ^ 53 → (X.round (n : ℝ) : X binary64) = X.fin n := fun n h =>
    round64_int n (by simp) (by rw [Nat.abs_cast]; exact_mod_cast h)
  have rm : ∀ n : Nat, n ≤ 2 ^ 53 → (X.round (-(n : ℝ)) : X binary64) = X.fin (-n) := fun n h =>
    round64_int (-n) (by simp) (by rw [abs_neg, Nat.abs_cast]; exact_mod_cast h)
  have r1 := r 1 (by norm_num)
  rw [Nat.cast_one] at r1
  have e : ∀ {F : Fmt}, (finOps ((List.replicate k 1).map .push) : List (Op (X F))) = (List.replicate k (X.fin 1)).map .push := by
    intro F; simp [finOps, Op.map]
  have hff : (ofNat 0 + X.fin 1 * X.fin 1 : X binary64) = X.fin 1 := by
    rw [o, X.mul_fin, mul_one, r1, X.add_fin, zero_add, r1]
  obtain ⟨s, h1, h2⟩ := summing_run (X.fin 1 : X binary64) (X.fin (-1)) (fun k => X.fin ((min k (2 ^ 53) : Nat) : ℝ))
    (by simp [o]) (by
      rw [hff, o, X.sub_fin, sub_zero, r1, X.div_fin_of_ne _ one_ne_zero, div_one, r1]
      norm_num) (by
      intro k
      have hk : min (k + 1) (2 ^ 53) ≤ 2 ^ 53 := min_le_right _ _
      rw [hff, o, X.mul_fin, mul_neg_one, rm _ hk, X.add_fin, zero_add, rm _ hk, X.sub_fin, sub_neg_eq_add]
      rcases Nat.lt_or_ge (k + 1) (2 ^ 53) with h | h
      · rw [min_eq_left h.le, min_eq_left (by omega), show (1 : ℝ) + ((k + 1 : Nat) : ℝ) = ((k + 2 : Nat) : ℝ) by push_cast; ring,
          r _ (by omega), X.div_fin_of_ne _ one_ne_zero, div_one, r _ (by omega)]
      · rw [min_eq_right h, min_eq_right (by omega)]
        have : (X.round (1 + ((2 ^ 53 : Nat) : ℝ)) : X binary64) = X.fin ((2 ^ 53 : Nat) : ℝ) := by
          have h := ofNat64_odd
          rw [X.ofNat_eq] at h
          rw [← h]
          congr 1
          push_cast
          ring
        rw [this, X.div_fin_of_ne _ one_ne_zero, div_one, r _ le_rfl]) k
  obtain ⟨t, h3, h4⟩ := summing_run (X.fin 1 : E ε) (X.fin (-1)) (fun k => X.fin (k : ℝ)) (by simp)
    (by simp [Exact.sub_fin, Exact.div_fin]) (by
      intro k
      simp [Exact.sub_fin, Exact.div_fin]
      ring) k
  exact ⟨s, t, by rw [e]; exact h1, h2, by rw [e]; exact h3, h4⟩

/-- C154 needs the condition: no bound holds for the summing filter, although all inputs are 1. -/
theorem C154_needed (D : ℝ) :
    ∃ (k : Nat) (s : Impulse.Infinite (X binary64)) (t : Impulse.Infinite (E ε)) (y z : ℝ),
      Impulse.Infinite.run [X.fin 1] [X.fin (-1)] (X.fin 1) (finOps ((List.replicate k 1).map .push)) = some s
      ∧ s.value = X.fin y
      ∧ Impulse.Infinite.run [X.fin 1] [X.fin (-1)] (X.fin 1) (finOps ((List.replicate k 1).map .push)) = some t
      ∧ t.value = X.fin z ∧ D < |y - z| := by
  obtain ⟨d, hd⟩ := exists_nat_gt D
  obtain ⟨s, t, h1, h2, h3, h4⟩ := C154_summing (ε := ε) (2 ^ 53 + d)
  refine ⟨_, s, t, _, _, h1, h2, h3, h4, ?_⟩
  rw [min_eq_right (by omega), abs_sub_comm, Nat.cast_add, add_sub_cancel_left, Nat.abs_cast]
  exact hd

end Verif.Props
