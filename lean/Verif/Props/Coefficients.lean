import Verif.Props.PolesError
/-
C185: coefficients that are known approximately, for example because they were rounded to the value type.
-/
namespace Verif.Spec

/-- The distance of two lists of coefficients. -/
noncomputable def apart (cs' cs : List ℝ) : ℝ := ((List.zipWith (· - ·) cs' cs).map abs).sum

/-- The gain of a filter whose divisor coefficients differ by `Δ` from those of a filter with the gain `G`. -/
noncomputable def nearGain (G Δ : ℝ) : ℝ := G / (1 - G * Δ)

theorem fir_sub {cs' cs : List ℝ} (h : cs'.length = cs.length) (xs : List ℝ) :
    fir cs' xs - fir cs xs = fir (List.zipWith (· - ·) cs' cs) xs := by
  rw [fir_eq, fir_eq, fir_eq]
  generalize xs.reverse = ys
  induction cs' generalizing cs ys with
  | nil =>
    obtain rfl : cs = [] := List.length_eq_zero_iff.1 h.symm
    simp
  | cons a cs' ih =>
    cases cs with
    | nil => simp at h
    | cons b cs =>
      cases ys with
      | nil => simp
      | cons y ys =>
        have := ih (cs := cs) (by simpa using h) ys
        simp only [List.zipWith_cons_cons, List.sum_cons]
        linear_combination this

theorem fir_apart {cs' cs : List ℝ} (h : cs'.length = cs.length) {xs : List ℝ} {B : ℝ} (hB0 : 0 ≤ B) (hB : ∀ x ∈ xs, |x| ≤ B) :
    |fir cs' xs - fir cs xs| ≤ B * apart cs' cs := by
  rw [fir_sub h]
  exact fir_abs_le hB0 fun x hx => hB x (List.mem_of_mem_drop hx)

end Verif.Spec

namespace Verif.Props
open Scalar Impulse Exact

variable {F : Fmt} {p : Nat} {emin : Int} {u η ε : ℝ}

theorem apart_nonneg (cs' cs : List ℝ) : 0 ≤ Spec.apart cs' cs := sum_abs_nonneg _

theorem gain_scale {bs : List ℝ} {c G : ℝ} (h : Spec.Gain bs c G) : c ≠ 0 := by
  rintro rfl
  have := h.2 [1] 0 (fun k hk => by
    obtain rfl : k = 0 := by simpa using hk
    simp) 1 (by simp)
  norm_num at this

/-- C185: the gain of a filter with approximate coefficients. -/
theorem C185_gain {bs bs' : List ℝ} {c c' G Δ : ℝ} (h : Spec.Gain bs c G) (hl : bs'.length = bs.length)
    (hΔ : Δ = |c' - c| + Spec.apart bs' bs) (hG : G * Δ < 1) : Spec.Gain bs' c' (Spec.nearGain G Δ) := by
  have hd : 0 < 1 - G * Δ := by linarith
  have hG0 := h.1
  have hap := apart_nonneg bs' bs
  refine ⟨div_nonneg hG0 hd.le, fun es R hR => ?_⟩
  obtain ⟨M, hM0, hM, hMm⟩ : ∃ M : ℝ, 0 ≤ M ∧ (∀ e ∈ es, |e| ≤ M) ∧ ((∀ e ∈ es, |e| ≤ G * (R + Δ * M)) → M ≤ G * (R + Δ * M) ∨ es = []) := by
    clear hR
    rcases es.eq_nil_or_concat with rfl | ⟨l, y, rfl⟩
    · exact ⟨0, le_rfl, by simp, fun _ => Or.inr rfl⟩
    · obtain ⟨x, hx, hmax⟩ := (l ++ [y]).toFinset.exists_max_image (fun e => |e|) ⟨y, by simp⟩
      rw [List.concat_eq_append]
      refine ⟨|x|, abs_nonneg _, fun e he => hmax e (List.mem_toFinset.2 he), fun hall => Or.inl (hall x (List.mem_toFinset.1 hx))⟩
  have hall : ∀ e ∈ es, |e| ≤ G * (R + Δ * M) := by
    refine h.2 es _ fun k hk => ?_
    have h1 := hR k hk
    have h2 := Spec.fir_apart hl hM0 (xs := es.take k) fun x hx => hM x (List.mem_of_mem_take hx)
    have h3 : |(c' - c) * es.getD k 0| ≤ |c' - c| * M := by
      rw [abs_mul]
      refine mul_le_mul_of_nonneg_left (hM _ ?_) (abs_nonneg _)
      rw [List.getD_eq_getElem _ _ hk]
      exact List.getElem_mem hk
    have h4 := abs_add_le (c' * es.getD k 0 + Spec.fir bs' (es.take k))
      (-((c' - c) * es.getD k 0) + -(Spec.fir bs' (es.take k) - Spec.fir bs (es.take k)))
    have h5 := abs_add_le (-((c' - c) * es.getD k 0)) (-(Spec.fir bs' (es.take k) - Spec.fir bs (es.take k)))
    rw [abs_neg, abs_neg] at h5
    rw [show c' * es.getD k 0 + Spec.fir bs' (es.take k) + (-((c' - c) * es.getD k 0) + -(Spec.fir bs' (es.take k) - Spec.fir bs (es.take k)))
      = c * es.getD k 0 + Spec.fir bs (es.take k) by ring] at h4
    rw [hΔ]
    linarith
  intro e he
  rcases hMm hall with hm | rfl
  · refine (hM e he).trans ?_
    rw [Spec.nearGain, div_mul_eq_mul_div, le_div_iff₀ hd]
    linarith
  · simp at he

/-- Outputs of a filter with the gain `G`. -/
theorem gain_outputs {as bs xs ys : List ℝ} {c G B : ℝ} (h : Spec.Gain bs c G) (hB0 : 0 ≤ B) (hy : Spec.IsIIR as bs c xs ys) (hx : ∀ x ∈ xs, |x| ≤ B) :
    ∀ y ∈ ys, |y| ≤ G * (B * (as.map abs).sum) := by
  refine h.2 ys _ fun k hk => ?_
  rw [hy.2 k (hy.1 ▸ hk), sub_add_cancel]
  exact Spec.fir_abs_le hB0 fun x hx' => hx x (List.mem_of_mem_take (List.mem_of_mem_drop hx'))

/-- C185: the poles of a filter lie inside the unit circle if and only if it has a finite gain. -/
theorem C185_poles {bs : List ℝ} (hb : bs ≠ []) {c : ℝ} : (∃ G, Spec.Gain bs c G) ↔ Spec.PolesInside bs c := by
  refine ⟨fun ⟨G, h⟩ => ?_, C184_gain⟩
  have hc := gain_scale h
  refine (C181_iff (ε := 0) (as := [1]) (by simp) hb hc fun z _ _ => by simp [Spec.polyAt]).1 ⟨G, fun ops B hB0 hx => ?_⟩
  obtain ⟨s, ys, hs, hy, -, hv⟩ := C52_iir (ε := 0) (as := [1]) (by simp) hb hc ops
  refine ⟨s, _, hs, hv, ?_⟩
  have hall := gain_outputs h hB0 hy hx
  rcases List.eq_nil_or_concat ys with rfl | ⟨l, y, rfl⟩
  · have := h.1; simp; positivity
  · rw [List.concat_eq_append] at hall ⊢
    simpa using hall y (by simp)

/-- C185: filters near a stable filter are stable. -/
theorem C185_stable {bs : List ℝ} (hb : bs ≠ []) {c : ℝ} (h : Spec.PolesInside bs c) :
    ∃ δ > 0, ∀ (bs' : List ℝ) (c' : ℝ), bs'.length = bs.length → |c' - c| + Spec.apart bs' bs < δ → Spec.PolesInside bs' c' := by
  obtain ⟨G, hG⟩ := C184_gain h
  have hG0 := hG.1
  refine ⟨1 / (G + 1), by positivity, fun bs' c' hl hd => (C185_poles (by rintro rfl; exact hb (List.length_eq_zero_iff.1 hl.symm))).1 ⟨_, C185_gain hG hl rfl ?_⟩⟩
  have h1 := mul_le_mul_of_nonneg_left hd.le hG0
  refine h1.trans_lt ?_
  rw [mul_one_div, div_lt_one (by linarith)]
  linarith

/-- The distance of the outputs for approximate coefficients and inputs of at most `B`. -/
noncomputable def Spec_coefficientError (as as' : List ℝ) (G Δ B : ℝ) : ℝ :=
  G * (B * Spec.apart as' as + Δ * (Spec.nearGain G Δ * (B * (as'.map abs).sum)))

theorem iir_apart {as as' bs bs' xs ys zs : List ℝ} {c c' G Δ B : ℝ} (h : Spec.Gain bs c G) (hla : as'.length = as.length) (hl : bs'.length = bs.length)
    (hΔ : Δ = |c' - c| + Spec.apart bs' bs) (hG : G * Δ < 1) (hB0 : 0 ≤ B) (hx : ∀ x ∈ xs, |x| ≤ B)
    (hy : Spec.IsIIR as' bs' c' xs ys) (hz : Spec.IsIIR as bs c xs zs) :
    ∀ e ∈ List.zipWith (fun y z => 1 * y + (-1) * z) ys zs, |e| ≤ Spec_coefficientError as as' G Δ B := by
  have hall := gain_outputs (C185_gain h hl hΔ hG) hB0 hy hx
  have hd : 0 < 1 - G * Δ := by linarith
  have hM0 : 0 ≤ Spec.nearGain G Δ * (B * (as'.map abs).sum) :=
    mul_nonneg (div_nonneg h.1 hd.le) (mul_nonneg hB0 (sum_abs_nonneg _))
  have hlen : ys.length = zs.length := hy.1.trans hz.1.symm
  refine h.2 _ _ fun k hk => ?_
  rw [List.length_zipWith, Nat.lt_min] at hk
  have e1 : (List.zipWith (fun y z => 1 * y + (-1) * z) ys zs).getD k 0 = ys.getD k 0 - zs.getD k 0 := by
    rw [List.getD_eq_getElem _ _ (by rw [List.length_zipWith]; omega), List.getD_eq_getElem _ _ hk.1, List.getD_eq_getElem _ _ hk.2, List.getElem_zipWith]
    ring
  rw [e1, List.take_zipWith, Spec.fir_linear _ _ _ (by rw [List.length_take, List.length_take, hlen])]
  have h1 := hy.2 k (hy.1 ▸ hk.1)
  have h2 := hz.2 k (hz.1 ▸ hk.2)
  have h3 := Spec.fir_apart hl hM0 (xs := ys.take k) fun x hx => hall x (List.mem_of_mem_take hx)
  have h4 := Spec.fir_apart hla hB0 (xs := xs.take (k + 1)) fun x hx' => hx x (List.mem_of_mem_take hx')
  have h5 : |(c' - c) * ys.getD k 0| ≤ |c' - c| * (Spec.nearGain G Δ * (B * (as'.map abs).sum)) := by
    rw [abs_mul]
    refine mul_le_mul_of_nonneg_left (hall _ ?_) (abs_nonneg _)
    rw [List.getD_eq_getElem _ _ hk.1]
    exact List.getElem_mem hk.1
  rw [show c * (ys.getD k 0 - zs.getD k 0) + (1 * Spec.fir bs (ys.take k) + -1 * Spec.fir bs (zs.take k))
    = (Spec.fir as' (xs.take (k + 1)) - Spec.fir as (xs.take (k + 1))) - ((c' - c) * ys.getD k 0 + (Spec.fir bs' (ys.take k) - Spec.fir bs (ys.take k))) by
      linear_combination h1 - h2]
  have h6 := abs_sub (Spec.fir as' (xs.take (k + 1)) - Spec.fir as (xs.take (k + 1)))
    ((c' - c) * ys.getD k 0 + (Spec.fir bs' (ys.take k) - Spec.fir bs (ys.take k)))
  have h7 := abs_add_le ((c' - c) * ys.getD k 0) (Spec.fir bs' (ys.take k) - Spec.fir bs (ys.take k))
  rw [hΔ] at h3 h5 ⊢
  linarith

theorem getLastD_apart {ys zs : List ℝ} {D : ℝ} (hD : 0 ≤ D) (hl : ys.length = zs.length)
    (h : ∀ e ∈ List.zipWith (fun y z => 1 * y + (-1) * z) ys zs, |e| ≤ D) : |ys.getLastD 0 - zs.getLastD 0| ≤ D := by
  rcases List.eq_nil_or_concat ys with rfl | ⟨l, y, rfl⟩
  · obtain rfl : zs = [] := List.length_eq_zero_iff.1 hl.symm
    simpa using hD
  · rcases List.eq_nil_or_concat zs with rfl | ⟨m, z, rfl⟩
    · simp at hl
    · rw [List.concat_eq_append, List.concat_eq_append] at *
      have hlm : l.length = m.length := by simpa using hl
      rw [List.zipWith_append hlm] at h
      have := h (1 * y + (-1) * z) (by simp)
      rw [show 1 * y + -1 * z = y - z by ring] at this
      simpa using this

/-- C185: the exact values of two filters whose coefficients differ little, for the same history. -/
theorem C185_output {as as' bs bs' : List ℝ} (ha : as ≠ []) (hb : bs ≠ []) {c c' G Δ B : ℝ} (h : Spec.Gain bs c G) (hla : as'.length = as.length)
    (hl : bs'.length = bs.length) (hΔ : Δ = |c' - c| + Spec.apart bs' bs) (hG : G * Δ < 1) (hB0 : 0 ≤ B)
    (ops : List (Op ℝ)) (hx : ∀ x ∈ sinceClear ops, |x| ≤ B) :
    ∃ (s t : Impulse.Infinite (E ε)) (y z : ℝ),
      Impulse.Infinite.run (as'.map X.fin) (bs'.map X.fin) (X.fin c') (finOps ops) = some s ∧ s.value = X.fin y
      ∧ Impulse.Infinite.run (as.map X.fin) (bs.map X.fin) (X.fin c) (finOps ops) = some t ∧ t.value = X.fin z
      ∧ |y - z| ≤ Spec_coefficientError as as' G Δ B := by
  have ha' : as' ≠ [] := by rintro rfl; exact ha (List.length_eq_zero_iff.1 hla.symm)
  have hb' : bs' ≠ [] := by rintro rfl; exact hb (List.length_eq_zero_iff.1 hl.symm)
  obtain ⟨t, zs, ht, hz, -, hvz⟩ := C52_iir (ε := ε) ha hb (gain_scale h) ops
  obtain ⟨s, ys, hs, hy, -, hvy⟩ := C52_iir (ε := ε) ha' hb' (gain_scale (C185_gain h hl hΔ hG)) ops
  refine ⟨s, t, _, _, hs, hvy, ht, hvz, getLastD_apart ?_ (hy.1.trans hz.1.symm) (iir_apart h hla hl hΔ hG hB0 hx hy hz)⟩
  have hd : 0 < 1 - G * Δ := by linarith
  have hΔ0 : 0 ≤ Δ := by rw [hΔ]; exact add_nonneg (abs_nonneg _) (apart_nonneg _ _)
  exact mul_nonneg h.1 (add_nonneg (mul_nonneg hB0 (apart_nonneg _ _))
    (mul_nonneg hΔ0 (mul_nonneg (div_nonneg h.1 hd.le) (mul_nonneg hB0 (sum_abs_nonneg _)))))

/-- C185: the computed values of the filter with rounded coefficients and the exact values of the filter that was meant. -/
theorem C185_rounded (hF : F.Binary p emin) (hE : F.Err u η) {K : ℝ} (hK : IsRep p emin K) (hKf : F.fits K)
    {as as' bs bs' : List ℝ} (ha : as ≠ []) (hb : bs ≠ []) {c c' G G' Δ B r a : ℝ} (h : Spec.Gain bs c G) (hla : as'.length = as.length)
    (hl : bs'.length = bs.length) (hΔ : Δ = |c' - c| + Spec.apart bs' bs) (hG : G * Δ < 1) (hB0 : 0 ≤ B) (hG' : G' = Spec.nearGain G Δ)
    (hr : r = Spec_iirRel u (max as'.length bs'.length)) (haa : a = Spec_iirAbs u η (max as'.length bs'.length) c')
    (hst : G' * (r * (bs'.map abs).sum) < 1)
    (hN : (1 + r) * (B * (as'.map abs).sum + Spec.gainBound r a as' bs' G' B * (bs'.map abs).sum) + a ≤ min 1 |c'| * K)
    (ops : List (Op ℝ)) (hx : ∀ x ∈ sinceClear ops, |x| ≤ B) :
    ∃ (s : Impulse.Infinite (X F)) (t : Impulse.Infinite (E ε)) (y z : ℝ),
      Impulse.Infinite.run (as'.map X.fin) (bs'.map X.fin) (X.fin c') (finOps ops) = some s ∧ s.value = X.fin y
      ∧ Impulse.Infinite.run (as.map X.fin) (bs.map X.fin) (X.fin c) (finOps ops) = some t ∧ t.value = X.fin z
      ∧ |y - z| ≤ G' * Spec.gainStep r a as' bs' G' B + Spec_coefficientError as as' G Δ B := by
  have ha' : as' ≠ [] := by rintro rfl; exact ha (List.length_eq_zero_iff.1 hla.symm)
  have hb' : bs' ≠ [] := by rintro rfl; exact hb (List.length_eq_zero_iff.1 hl.symm)
  have hg := C185_gain h hl hΔ hG
  rw [← hG'] at hg
  obtain ⟨s, t, y, v, h1, h2, h3, h4, -, h6⟩ := C184_error (ε := ε) hF hE hK hKf ha' hb' hB0 (gain_scale hg) hg hr haa hst hN ops hx
  obtain ⟨s', t', y', z, h1', h2', h3', h4', h6'⟩ := C185_output (ε := ε) ha hb h hla hl hΔ hG hB0 ops hx
  rw [h3] at h1'
  cases h1'
  rw [h4] at h2'
  cases h2'
  refine ⟨s, t', y, z, h1, h2, h3', h4', ?_⟩
  have := abs_add_le (y - v) (v - z)
  rw [sub_add_sub_cancel] at this
  linarith

/-! ### Non-vacuity -/

/-- The filter of `gain_example`, with coefficients that are off by up to `1/1000` each, is stable and has at most the gain 60. -/
example (b b' c : ℝ) (h1 : |b - (-6 / 5)| ≤ 1 / 1000) (h2 : |b' - 18 / 25| ≤ 1 / 1000) (h3 : |c - 1| ≤ 1 / 1000) :
    Spec.PolesInside [b, b'] c ∧ ∃ G ≤ 60, Spec.Gain [b, b'] c G := by
  have hΔ : |c - 1| + Spec.apart [b, b'] [-6 / 5, 18 / 25] ≤ 3 / 1000 := by
    simp only [Spec.apart, List.zipWith_cons_cons, List.zipWith_nil_left, List.map_cons, List.map_nil, List.sum_cons, List.sum_nil]
    linarith
  have hg := C185_gain (bs' := [b, b']) (c' := c) gain_example rfl rfl (by linarith)
  refine ⟨(C185_poles (by simp)).1 ⟨_, hg⟩, _, ?_, hg⟩
  rw [Spec.nearGain, div_le_iff₀ (by linarith)]
  linarith

/-- With these coefficients the outputs for inputs of at most 1 differ by at most 10 from those of the filter that was meant. -/
example (b b' c : ℝ) (h1 : |b - (-6 / 5)| ≤ 1 / 1000) (h2 : |b' - 18 / 25| ≤ 1 / 1000) (h3 : |c - 1| ≤ 1 / 1000)
    (ops : List (Op ℝ)) (hx : ∀ x ∈ sinceClear ops, |x| ≤ 1) :
    ∃ (s t : Impulse.Infinite (E ε)) (y z : ℝ),
      Impulse.Infinite.run ([1].map X.fin) ([b, b'].map X.fin) (X.fin c) (finOps ops) = some s ∧ s.value = X.fin y
      ∧ Impulse.Infinite.run ([1].map X.fin) ([-6 / 5, 18 / 25].map X.fin) (X.fin 1) (finOps ops) = some t ∧ t.value = X.fin z
      ∧ |y - z| ≤ 10 := by
  have hΔ : |c - 1| + Spec.apart [b, b'] [-6 / 5, 18 / 25] ≤ 3 / 1000 := by
    simp only [Spec.apart, List.zipWith_cons_cons, List.zipWith_nil_left, List.map_cons, List.map_nil, List.sum_cons, List.sum_nil]
    linarith
  have hΔ0 : 0 ≤ |c - 1| + Spec.apart [b, b'] [-6 / 5, 18 / 25] := add_nonneg (abs_nonneg _) (apart_nonneg _ _)
  obtain ⟨s, t, y, z, i1, i2, i3, i4, i5⟩ := C185_output (ε := ε) (as := [1]) (as' := [1]) (bs := [-6 / 5, 18 / 25]) (bs' := [b, b']) (by simp) (by simp) (c' := c)
    gain_example rfl rfl rfl (by linarith) zero_le_one ops hx
  refine ⟨s, t, y, z, i1, i2, i3, i4, i5.trans ?_⟩
  have hng : Spec.nearGain 50 (|c - 1| + Spec.apart [b, b'] [-6 / 5, 18 / 25]) ≤ 60 := by
    rw [Spec.nearGain, div_le_iff₀ (by linarith)]
    linarith
  have h0 : Spec.apart [1] [1] = 0 := by simp [Spec.apart]
  rw [Spec_coefficientError, h0]
  simp only [List.map_cons, List.map_nil, List.sum_cons, List.sum_nil, abs_one]
  have := mul_le_mul hΔ hng (div_nonneg (by norm_num) (by linarith)) (by norm_num)
  linarith

/-- The filter with its coefficients rounded to binary64 and every operation rounded: for inputs up to 1000 the values are within `2^-27` of the
exact values of the filter `y_n = 1.2 y_{n-1} - 0.72 y_{n-2} + x_n`, for ever. -/
example (b b' : ℝ) (h1 : |b - (-6 / 5)| ≤ 2 ^ (-53 : Int)) (h2 : |b' - 18 / 25| ≤ 2 ^ (-53 : Int))
    (ops : List (Op ℝ)) (hx : ∀ x ∈ sinceClear ops, |x| ≤ 1000) :
    ∃ (s : Impulse.Infinite (X binary64)) (t : Impulse.Infinite (E 0)) (y z : ℝ),
      Impulse.Infinite.run ([1].map X.fin) ([b, b'].map X.fin) (X.fin 1) (finOps ops) = some s ∧ s.value = X.fin y
      ∧ Impulse.Infinite.run ([1].map X.fin) ([-6 / 5, 18 / 25].map X.fin) (X.fin 1) (finOps ops) = some t ∧ t.value = X.fin z
      ∧ |y - z| ≤ 2 ^ (-27 : Int) := by
  have hK := binary64_int (n := 1000000) (by norm_num)
  have hη : (2 : ℝ) ^ (-1075 : Int) ≤ 2 ^ (-100 : Int) := zpow_le_zpow_right₀ (by norm_num) (by norm_num)
  have hη0 : (0 : ℝ) ≤ 2 ^ (-1075 : Int) := by positivity
  obtain ⟨r, hr⟩ : ∃ r, r = Spec_iirRel (2 ^ (-53 : Int)) 2 := ⟨_, rfl⟩
  obtain ⟨a, ha⟩ : ∃ a, a = Spec_iirAbs (2 ^ (-53 : Int)) (2 ^ (-1075 : Int)) 2 1 := ⟨_, rfl⟩
  have hr0 : 0 ≤ r := by rw [hr]; norm_num [Spec_iirRel]
  have hr1 : r ≤ 2 ^ (-50 : Int) := by rw [hr]; norm_num [Spec_iirRel]
  have ha0 : 0 ≤ a := by rw [ha, Spec_iirAbs]; positivity
  have ha1 : a ≤ 2 ^ (-90 : Int) := by
    rw [ha, Spec_iirAbs]
    refine (mul_le_mul_of_nonneg_left hη (by positivity)).trans ?_
    norm_num
  obtain ⟨Δ, hΔ⟩ : ∃ Δ, Δ = |(1 : ℝ) - 1| + Spec.apart [b, b'] [-6 / 5, 18 / 25] := ⟨_, rfl⟩
  have hΔ1 : Δ ≤ 2 ^ (-52 : Int) := by
    rw [hΔ, sub_self, abs_zero, zero_add]
    simp only [Spec.apart, List.zipWith_cons_cons, List.zipWith_nil_left, List.map_cons, List.map_nil, List.sum_cons, List.sum_nil]
    norm_num at h1 h2 ⊢
    linarith
  have hΔ0 : 0 ≤ Δ := by rw [hΔ]; exact add_nonneg (abs_nonneg _) (apart_nonneg _ _)
  have hA : (([1] : List ℝ).map abs).sum = 1 := by norm_num
  have hB0 := sum_abs_nonneg [b, b']
  have hB : ([b, b'].map abs).sum ≤ 2 := by
    simp only [List.map_cons, List.map_nil, List.sum_cons, List.sum_nil]
    have e1 := abs_add_le (b - (-6 / 5)) (-6 / 5)
    have e2 := abs_add_le (b' - 18 / 25) (18 / 25)
    rw [sub_add_cancel] at e1 e2
    rw [abs_of_neg (show (-6 / 5 : ℝ) < 0 by norm_num)] at e1
    rw [abs_of_pos (show (0 : ℝ) < 18 / 25 by norm_num)] at e2
    norm_num at h1 h2 e1 e2 ⊢
    linarith
  obtain ⟨G, hG⟩ : ∃ G, G = Spec.nearGain 50 Δ := ⟨_, rfl⟩
  have hG0 : 0 ≤ G := by
    rw [hG, Spec.nearGain]
    exact div_nonneg (by norm_num) (by norm_num at hΔ1; linarith)
  have hG1 : G ≤ 501 / 10 := by
    rw [hG, Spec.nearGain, div_le_iff₀ (by norm_num at hΔ1; linarith)]
    norm_num at hΔ1
    linarith
  set S := ([b, b'].map abs).sum with hS
  have hrS : r * S ≤ 2 ^ (-50 : Int) * 2 := mul_le_mul hr1 hB hB0 (by positivity)
  have hGrS : G * (r * S) ≤ 501 / 10 * (2 ^ (-50 : Int) * 2) := mul_le_mul hG1 hrS (by positivity) (by norm_num)
  have hM : Spec.gainBound r a [1] [b, b'] G 1000 ≤ 51000 := by
    rw [Spec.gainBound, hA, ← hS, div_le_iff₀ (by norm_num at hGrS ⊢; linarith)]
    have : G * ((1 + r) * (1000 * 1) + a) ≤ 501 / 10 * ((1 + 2 ^ (-50 : Int)) * (1000 * 1) + 2 ^ (-90 : Int)) :=
      mul_le_mul hG1 (by linarith) (by positivity) (by norm_num)
    norm_num at this hGrS ⊢
    linarith
  have hM0 : 0 ≤ Spec.gainBound r a [1] [b, b'] G 1000 := by
    rw [Spec.gainBound, hA, ← hS]
    exact div_nonneg (by positivity) (by norm_num at hGrS ⊢; linarith)
  have hMS : Spec.gainBound r a [1] [b, b'] G 1000 * S ≤ 51000 * 2 := mul_le_mul hM hB hB0 (by norm_num)
  obtain ⟨s, t, y, z, i1, i2, i3, i4, i5⟩ := C185_rounded (ε := 0) binary64_binary binary64_err hK.1 hK.2 (as := [1]) (as' := [1])
    (bs := [-6 / 5, 18 / 25]) (bs' := [b, b']) (by simp) (by simp) (c := 1) (c' := 1) (B := 1000) gain_example rfl rfl hΔ
    (by norm_num at hΔ1; linarith) (by norm_num) hG hr ha (by rw [← hS]; norm_num at hGrS ⊢; linarith)
    (by
      rw [hA, ← hS, abs_one, min_self]
      have : (1 + r) * (1000 * 1 + Spec.gainBound r a [1] [b, b'] G 1000 * S) ≤ (1 + 2 ^ (-50 : Int)) * (1000 * 1 + 51000 * 2) :=
        mul_le_mul (by linarith) (by linarith) (by positivity) (by positivity)
      norm_num at this ha1 ⊢
      linarith) ops hx
  refine ⟨s, t, y, z, i1, i2, i3, i4, i5.trans ?_⟩
  have h0 : Spec.apart [1] [1] = 0 := by simp [Spec.apart]
  rw [Spec_coefficientError, h0, ← hG, hA, Spec.gainStep, hA, ← hS]
  have e1 : r * (1000 * 1 + Spec.gainBound r a [1] [b, b'] G 1000 * S) + a ≤ 2 ^ (-50 : Int) * (1000 * 1 + 51000 * 2) + 2 ^ (-90 : Int) :=
    add_le_add (mul_le_mul hr1 (by linarith) (by positivity) (by positivity)) ha1
  have e2 := mul_le_mul hG1 e1 (by positivity) (by norm_num)
  have e3 : G * (1000 * 1) ≤ 501 / 10 * 1000 := by linarith
  have e4 := mul_le_mul hΔ1 e3 (by positivity) (by positivity)
  norm_num at e2 e4 ⊢
  linarith

end Verif.Props
