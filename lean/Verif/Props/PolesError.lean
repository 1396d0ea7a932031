import Verif.Props.Frequency
import Verif.Props.ContractedImpulse
/-
C184: the rounding error of every infinite impulse filter with its poles inside the unit circle is bounded for ever.
-/
namespace Verif.Spec

/-- A disturbance of at most `R` in every step of the difference equation changes the outputs by at most `G R`. -/
def Gain (bs : List ℝ) (c G : ℝ) : Prop :=
  0 ≤ G ∧ ∀ (es : List ℝ) (R : ℝ), (∀ k < es.length, |c * es.getD k 0 + fir bs (es.take k)| ≤ R) → ∀ e ∈ es, |e| ≤ G * R

/-- The bound on the computed values for inputs of at most `B`: `r` and `a` are the relative and the absolute error of a step. -/
noncomputable def gainBound (r a : ℝ) (as bs : List ℝ) (G B : ℝ) : ℝ :=
  G * ((1 + r) * (B * (as.map abs).sum) + a) / (1 - G * (r * (bs.map abs).sum))

/-- The bound on the error of a step. -/
noncomputable def gainStep (r a : ℝ) (as bs : List ℝ) (G B : ℝ) : ℝ :=
  r * (B * (as.map abs).sum + gainBound r a as bs G B * (bs.map abs).sum) + a

end Verif.Spec

namespace Verif.Props
open Scalar Impulse Exact

variable {F : Fmt} {p : Nat} {emin : Int} {u η ε : ℝ}

/-- From the division of power series to lists. -/
theorem gain_of_series {bs : List ℝ} {c G : ℝ} (hc : c ≠ 0) (hG : 0 ≤ G)
    (h : ∀ (E : PowerSeries ℂ) (R : ℝ), (∀ k, ‖PowerSeries.coeff k (cseries (c :: bs) * E)‖ ≤ R) → ∀ k, ‖PowerSeries.coeff k E‖ ≤ G * R) :
    Spec.Gain bs c G := by
  refine ⟨hG, fun es R hR e he => ?_⟩
  have hR0 : 0 ≤ R := (abs_nonneg _).trans (hR 0 (List.length_pos_of_mem he))
  set r : ℕ → ℝ := fun k => if k < es.length then c * es.getD k 0 + Spec.fir bs (es.take k) else 0 with hr
  have h1 : Spec.IsIIR [1] bs c ((List.range es.length).map r) es := by
    refine ⟨by simp, fun k hk => ?_⟩
    rw [List.length_map, List.length_range] at hk
    have e1 : Spec.fir [1] (((List.range es.length).map r).take (k + 1)) = r k := by
      rw [← List.map_take, List.take_range, Nat.min_eq_left (by omega), List.range_succ, List.map_append]
      simp [Spec.fir]
    rw [e1, hr]
    simp only [if_pos hk]
    ring
  have h2 := Spec.isIIR_unique hc h1 (iirList_isIIR [1] bs hc r es.length)
  rw [iirList_eq] at h2
  obtain ⟨k, hk, rfl⟩ := List.getElem_of_mem he
  have h3 : es[k] = iirOut [1] bs c r k := by
    have := congrArg (fun l => l.getD k 0) h2
    rw [List.getD_eq_getElem _ _ hk, List.getD_eq_getElem _ _ (by simpa using hk)] at this
    simpa using this
  have := h (PowerSeries.mk fun k => (iirOut [1] bs c r k : ℂ)) R (fun j => ?_) k
  · rw [PowerSeries.coeff_mk, Complex.norm_real, Real.norm_eq_abs] at this
    rw [h3]; exact this
  · rw [iirOut_cseries [1] bs hc, PowerSeries.coeff_map, ← fir_mk]
    have e1 : Spec.fir [1] ((List.range (j + 1)).map r) = r j := by
      rw [List.range_succ, List.map_append]
      simp [Spec.fir]
    rw [e1]
    show ‖((r j : ℝ) : ℂ)‖ ≤ R
    rw [Complex.norm_real, Real.norm_eq_abs, hr]
    dsimp only
    split_ifs with hj
    · exact hR j hj
    · rw [abs_zero]; exact hR0

/-- C184: a filter with its poles inside the unit circle has a finite gain. -/
theorem C184_gain {bs : List ℝ} {c : ℝ} (h : Spec.PolesInside bs c) : ∃ G, Spec.Gain bs c G := by
  have hc : c ≠ 0 := by
    rintro rfl
    refine h 0 (by simp) ?_
    rw [Spec.polyAt, List.length_cons, Finset.sum_range_succ']
    simp
  obtain ⟨⟨K, hK, hb⟩, -⟩ := keeps_poly h
  exact ⟨K, gain_of_series hc hK hb⟩

/-- The error of a filter with the gain `G`, from the error of one step: `R is ys` says that the filter is in the state with outputs `ys` after
the inputs `is`. -/
theorem iir_gain_core {ι : Type} (val : ι → ℝ) (R : List ι → List ℝ → Prop) {as bs : List ℝ}
    {c B G r a : ℝ} (hr : 0 ≤ r) (ha : 0 ≤ a) (hB0 : 0 ≤ B) (hc : c ≠ 0) (hG : Spec.Gain bs c G) (hst : G * (r * (bs.map abs).sum) < 1) (h0 : R [] [])
    (hstep : ∀ (is : List ι) (i : ι) (ys : List ℝ), R is ys → Spec_firAbs as ((is ++ [i]).map val) ≤ B * (as.map abs).sum →
      Spec_firAbs bs ys ≤ Spec.gainBound r a as bs G B * (bs.map abs).sum →
      ∃ y : ℝ, R (is ++ [i]) (ys ++ [y])
        ∧ |c * y - (Spec.fir as ((is ++ [i]).map val) - Spec.fir bs ys)| ≤ Spec.gainStep r a as bs G B)
    (is : List ι) (hx : ∀ i ∈ is, |val i| ≤ B) :
    ∃ ys zs : List ℝ, ys.length = is.length ∧ Spec.IsIIR as bs c (is.map val) zs ∧ R is ys
      ∧ (∀ y ∈ ys, |y| ≤ Spec.gainBound r a as bs G B)
      ∧ ∀ e ∈ List.zipWith (fun y z => 1 * y + (-1) * z) ys zs, |e| ≤ G * Spec.gainStep r a as bs G B := by
  have hA0 := sum_abs_nonneg as
  have hb0 := sum_abs_nonneg bs
  have hG0 := hG.1
  have hd : 0 < 1 - G * (r * (bs.map abs).sum) := by linarith
  set M := Spec.gainBound r a as bs G B with hM
  have hMe : M * (1 - G * (r * (bs.map abs).sum)) = G * ((1 + r) * (B * (as.map abs).sum) + a) := div_mul_cancel₀ _ hd.ne'
  have hM0 : 0 ≤ M := div_nonneg (by positivity) hd.le
  set Q := Spec.gainStep r a as bs G B with hQ
  have hQe : Q = r * (B * (as.map abs).sum + M * (bs.map abs).sum) + a := rfl
  have key : ∃ ys zs : List ℝ, ys.length = is.length ∧ Spec.IsIIR as bs c (is.map val) zs ∧ R is ys ∧ (∀ y ∈ ys, |y| ≤ M)
      ∧ ∀ k < ys.length, |c * ys.getD k 0 - (Spec.fir as ((is.map val).take (k + 1)) - Spec.fir bs (ys.take k))| ≤ Q := by
    induction is using List.reverseRecOn with
    | nil => exact ⟨[], [], rfl, Spec.isIIR_nil _ _ _, h0, by simp, by simp⟩
    | append_singleton is i ih =>
      obtain ⟨ys, zs, hl, hz, hs, hyM, hyD⟩ := ih fun j h => hx j (by simp [h])
      have hx' : ∀ v ∈ (is ++ [i]).map val, |v| ≤ B := by
        intro v hv
        obtain ⟨j, hj, rfl⟩ := List.mem_map.1 hv
        exact hx j hj
      obtain ⟨y, hs', h4⟩ := hstep is i ys hs (firAbs_le hB0 as _ hx') (firAbs_le hM0 bs ys hyM)
      rw [List.map_append, List.map_singleton] at h4 hx' ⊢
      have hres : ∀ k < (ys ++ [y]).length,
          |c * (ys ++ [y]).getD k 0 - (Spec.fir as ((is.map val ++ [val i]).take (k + 1)) - Spec.fir bs ((ys ++ [y]).take k))| ≤ Q := by
        intro k hk
        rw [List.length_append, List.length_singleton] at hk
        rcases Nat.lt_or_ge k ys.length with hk' | hk'
        · rw [List.getD_append _ _ _ _ hk', List.take_append_of_le_length (by rw [List.length_map]; omega), List.take_append_of_le_length hk'.le]
          exact hyD k hk'
        · obtain rfl : k = ys.length := by omega
          rw [List.getD_append_right _ _ _ _ le_rfl, Nat.sub_self, List.getD_cons_zero, List.take_of_length_le (by simp [hl]),
            List.take_append_of_le_length le_rfl, List.take_length]
          exact h4
      refine ⟨ys ++ [y], zs ++ [(Spec.fir as (is.map val ++ [val i]) - Spec.fir bs zs) / c], by simp [hl], Spec.isIIR_snoc hc hz (val i), hs', ?_, hres⟩
      intro v hv
      refine (hG.2 (ys ++ [y]) (B * (as.map abs).sum + Q) (fun k hk => ?_) v hv).trans (le_of_eq ?_)
      · have h5 := hres k hk
        have h6 : |Spec.fir as ((is.map val ++ [val i]).take (k + 1))| ≤ B * (as.map abs).sum :=
          Spec.fir_abs_le hB0 fun v hv => hx' v (List.mem_of_mem_take (List.mem_of_mem_drop hv))
        have h7 := abs_add_le (Spec.fir as ((is.map val ++ [val i]).take (k + 1)))
          (c * (ys ++ [y]).getD k 0 - (Spec.fir as ((is.map val ++ [val i]).take (k + 1)) - Spec.fir bs ((ys ++ [y]).take k)))
        rw [show Spec.fir as ((is.map val ++ [val i]).take (k + 1)) + (c * (ys ++ [y]).getD k 0
          - (Spec.fir as ((is.map val ++ [val i]).take (k + 1)) - Spec.fir bs ((ys ++ [y]).take k)))
          = c * (ys ++ [y]).getD k 0 + Spec.fir bs ((ys ++ [y]).take k) by ring] at h7
        linarith
      · rw [hQe]; linear_combination -hMe
  obtain ⟨ys, zs, hl, hz, hs, hyM, hyD⟩ := key
  have hlz : zs.length = is.length := by rw [hz.1, List.length_map]
  refine ⟨ys, zs, hl, hz, hs, hyM, hG.2 _ Q fun k hk => ?_⟩
  rw [List.length_zipWith, Nat.lt_min] at hk
  have e1 : (List.zipWith (fun y z => 1 * y + (-1) * z) ys zs).getD k 0 = ys.getD k 0 - zs.getD k 0 := by
    rw [List.getD_eq_getElem _ _ (by rw [List.length_zipWith]; omega), List.getD_eq_getElem _ _ hk.1, List.getD_eq_getElem _ _ hk.2, List.getElem_zipWith]
    ring
  rw [e1, List.take_zipWith, Spec.fir_linear _ _ _ (by rw [List.length_take, List.length_take, hl, hlz])]
  have h1 := hyD k hk.1
  have h2 := hz.2 k (by rw [List.length_map]; omega)
  rw [show c * (ys.getD k 0 - zs.getD k 0) + (1 * Spec.fir bs (ys.take k) + -1 * Spec.fir bs (zs.take k))
    = c * ys.getD k 0 - (Spec.fir as ((is.map val).take (k + 1)) - Spec.fir bs (ys.take k)) by linear_combination -h2]
  exact h1

/-- C184: any history of a filter with the gain `G`, whichever products the compiler contracts: the value is a finite number within the bound and
its distance from the exact value has a bound that does not depend on the number of values. -/
theorem C184_contracted (hF : F.Binary p emin) (hE : F.Err u η) {K : ℝ} (hK : IsRep p emin K) (hKf : F.fits K)
    {as bs : List ℝ} (ha : as ≠ []) (hb : bs ≠ []) {c B G r a : ℝ} (hB0 : 0 ≤ B) (hc : c ≠ 0) (hG : Spec.Gain bs c G)
    (hr : r = Spec_iirRel u (max as.length bs.length)) (haa : a = Spec_iirAbs u η (max as.length bs.length) c)
    (hst : G * (r * (bs.map abs).sum) < 1)
    (hN : (1 + r) * (B * (as.map abs).sum + Spec.gainBound r a as bs G B * (bs.map abs).sum) + a ≤ min 1 |c| * K)
    (ops : List (Op (((Nat → Bool) × (Nat → Bool)) × ℝ))) (hx : ∀ x ∈ pushed ops, |x| ≤ B) :
    ∃ (s : Impulse.Infinite (X F)) (t : Impulse.Infinite (E ε)) (y z : ℝ),
      Contracted.Infinite.run (as.map X.fin) (bs.map X.fin) (X.fin c) (finK ops) = some s ∧ s.value = X.fin y
      ∧ Impulse.Infinite.run (as.map X.fin) (bs.map X.fin) (X.fin c) (finOps (withoutChoices ops)) = some t ∧ t.value = X.fin z
      ∧ |y| ≤ Spec.gainBound r a as bs G B ∧ |y - z| ≤ G * Spec.gainStep r a as bs G B := by
  have hP : 1 ≤ as.length := List.length_pos_iff.2 ha
  have hQ : 1 ≤ bs.length := List.length_pos_iff.2 hb
  have hb0 := sum_abs_nonneg bs
  have ha0 := sum_abs_nonneg as
  have hu := hE.u_nonneg
  have he := hE.eta_nonneg
  have hcp : 0 < |c| := abs_pos.2 hc
  have hr0 : 0 ≤ r := by
    rw [hr, Spec_iirRel]
    linarith [one_le_pow₀ (M₀ := ℝ) (n := max as.length bs.length + 3) (show 1 ≤ 1 + u by linarith)]
  have hab0 : 0 ≤ a := by rw [haa, Spec_iirAbs]; positivity
  have hG0 := hG.1
  have hM0 : 0 ≤ Spec.gainBound r a as bs G B := div_nonneg (by positivity) (by linarith)
  have hS0 : 0 ≤ Spec.gainStep r a as bs G B := by rw [Spec.gainStep]; positivity
  set N := ((1 + r) * (B * (as.map abs).sum + Spec.gainBound r a as bs G B * (bs.map abs).sum) + a) / |c| with hNd
  have hNe : |c| * N = (1 + r) * (B * (as.map abs).sum + Spec.gainBound r a as bs G B * (bs.map abs).sum) + a := mul_div_cancel₀ _ hcp.ne'
  have hL0 : 0 ≤ (1 + r) * (B * (as.map abs).sum + Spec.gainBound r a as bs G B * (bs.map abs).sum) + a := by positivity
  have hK0 : 0 ≤ K := by
    by_contra hneg
    have := mul_neg_of_pos_of_neg (lt_min one_pos hcp) (not_le.1 hneg)
    linarith
  have hcM : |c| * N ≤ K := by
    rw [hNe]; exact hN.trans (mul_le_of_le_one_left hK0 (min_le_left _ _))
  have hMK : N ≤ K := by
    have h1 : |c| * N ≤ |c| * K := by rw [hNe]; exact hN.trans (mul_le_mul_of_nonneg_right (min_le_right _ _) hK0)
    exact le_of_mul_le_mul_left h1 hcp
  obtain ⟨ys, zs, hl, hz, hs, hyM, hyD⟩ := iir_gain_core (Prod.snd : ((Nat → Bool) × (Nat → Bool)) × ℝ → ℝ)
    (fun is ys => (is.map fun i => (i.1, X.fin i.2)).foldl (fun s x => s.bind (Contracted.Infinite.push · x))
          (some (Impulse.Infinite.init (as.map X.fin) (bs.map X.fin) (X.fin c)))
        = some { inputWindow := ⟨as.length, (((is.map Prod.snd).reverse).take as.length).map X.fin⟩
                 inputCoefficients := as.map X.fin
                 outputWindow := ⟨bs.length, (ys.reverse.take bs.length).map X.fin⟩
                 outputScale := (X.fin c : X F)
                 outputCoefficients := bs.map X.fin }) hr0 hab0 hB0 hc hG hst (by simp [Impulse.Infinite.init, Deque.init])
    (by
      intro is i ys hs hS hT
      have hfa : |Spec.fir as ((is ++ [i]).map Prod.snd)| ≤ _ := (by rw [Spec.fir_eq]; exact abs_zip_le _ _ : _ ≤ Spec_firAbs as _).trans hS
      have hfb : |Spec.fir bs ys| ≤ _ := (by rw [Spec.fir_eq]; exact abs_zip_le _ _ : _ ≤ Spec_firAbs bs ys).trans hT
      have hM := hNe.ge
      obtain ⟨r1, r2⟩ := iir_range hu he (n := max as.length bs.length) (c := c) (N := K) ((abs_nonneg _).trans hfa) ((abs_nonneg _).trans hfb)
        (by rw [← hr, ← haa]; exact hM.trans hcM)
      obtain ⟨a', h1, ha2⟩ := fused_newest_fin hF hE hK hKf i.1.1 as _ ((min_le_left _ _).trans (le_max_left _ _)) hS r1
      obtain ⟨b', h2, hb2⟩ := fused_newest_fin hF hE hK hKf i.1.2 bs ys ((min_le_left _ _).trans (le_max_right _ _)) hT r2
      obtain ⟨y, h3, h4, h5⟩ := iir_div_fin hF hE hK hKf hc hfa hfb ha2 hb2 (by rw [← hr, ← haa]; exact hM) hcM hMK
      have hd := pushFront_take (P := as.length) hP ((is.map Prod.snd).reverse.map (X.fin : ℝ → X F)) (X.fin i.2)
      have hd2' := fun z => pushFront_take (P := bs.length) hQ (ys.reverse.map (X.fin : ℝ → X F)) z
      simp only [← List.map_cons, ← List.map_take] at hd hd2'
      rw [← hr, ← haa] at h4
      refine ⟨y, ?_, h4⟩
      rw [List.map_append, List.foldl_append, hs]
      show Contracted.Infinite.push _ (i.1, X.fin i.2) = _
      rw [List.map_append, List.map_singleton, List.reverse_append, List.reverse_singleton, List.singleton_append] at h1
      simp only [Contracted.Infinite.push, hd, h1, h2, Option.bind_eq_bind, Option.bind_some, hd2']
      rw [h3]
      simp [List.map_take]) (sinceClear ops) (fun i hi => hx _ (List.mem_map_of_mem hi))
  obtain ⟨t, zs', ht, hz', -, hv⟩ := C52_iir (ε := ε) ha hb hc (withoutChoices ops)
  rw [pushed_eq] at hz'
  obtain rfl := Spec.isIIR_unique hc hz hz'
  rw [← sinceClear_finK, ← (fusedInfinite_eq (by simpa using ha) (by simpa using hb) _ _).1] at hs
  have hlz := hz.1
  rw [List.length_map] at hlz
  obtain ⟨q, hq⟩ : ∃ q, bs.length = q + 1 := ⟨bs.length - 1, by omega⟩
  refine ⟨_, t, ys.getLastD 0, zs.getLastD 0, hs, ?_, ht, hv, ?_⟩
  · rcases List.eq_nil_or_concat ys with rfl | ⟨l, y, rfl⟩
    · simp [Impulse.Infinite.value, hF.ofNat_zero]
    · simp [Impulse.Infinite.value, hq]
  · rcases List.eq_nil_or_concat ys with rfl | ⟨l, y, rfl⟩
    · obtain rfl : zs = [] := List.length_eq_zero_iff.1 (by rw [hlz, ← hl]; rfl)
      refine ⟨by simpa using hM0, ?_⟩
      simp only [List.getLastD_nil, sub_self, abs_zero]
      exact mul_nonneg hG0 hS0
    · rcases List.eq_nil_or_concat zs with rfl | ⟨l', z, rfl⟩
      · rw [← hl] at hlz; simp at hlz
      · simp only [List.concat_eq_append] at *
        rw [List.getLastD_concat, List.getLastD_concat]
        refine ⟨hyM y (by simp), ?_⟩
        have hll : l.length = l'.length := by rw [← hl] at hlz; simp at hlz; omega
        exact hyD (y - z) (by
          rw [List.zipWith_append hll]
          simp; right; ring)

/-- C184: the same for the filter as it is written. -/
theorem C184_error (hF : F.Binary p emin) (hE : F.Err u η) {K : ℝ} (hK : IsRep p emin K) (hKf : F.fits K)
    {as bs : List ℝ} (ha : as ≠ []) (hb : bs ≠ []) {c B G r a : ℝ} (hB0 : 0 ≤ B) (hc : c ≠ 0) (hG : Spec.Gain bs c G)
    (hr : r = Spec_iirRel u (max as.length bs.length)) (haa : a = Spec_iirAbs u η (max as.length bs.length) c)
    (hst : G * (r * (bs.map abs).sum) < 1)
    (hN : (1 + r) * (B * (as.map abs).sum + Spec.gainBound r a as bs G B * (bs.map abs).sum) + a ≤ min 1 |c| * K)
    (ops : List (Op ℝ)) (hx : ∀ x ∈ sinceClear ops, |x| ≤ B) :
    ∃ (s : Impulse.Infinite (X F)) (t : Impulse.Infinite (E ε)) (y z : ℝ),
      Impulse.Infinite.run (as.map X.fin) (bs.map X.fin) (X.fin c) (finOps ops) = some s ∧ s.value = X.fin y
      ∧ Impulse.Infinite.run (as.map X.fin) (bs.map X.fin) (X.fin c) (finOps ops) = some t ∧ t.value = X.fin z
      ∧ |y| ≤ Spec.gainBound r a as bs G B ∧ |y - z| ≤ G * Spec.gainStep r a as bs G B := by
  have e : withoutChoices (ops.map (Op.map fun x => (((fun _ : ℕ => false), (fun _ : ℕ => false)), x))) = ops := by
    rw [withoutChoices, List.map_map]
    conv_rhs => rw [← List.map_id ops]
    refine List.map_congr_left fun o _ => ?_
    cases o <;> rfl
  have e' : (finK (ops.map (Op.map fun x => (((fun _ : ℕ => false), (fun _ : ℕ => false)), x))) : List (Op (_ × X F)))
      = (finOps ops).map (Op.map fun x => (((fun _ : ℕ => false), (fun _ : ℕ => false)), x)) := by
    rw [finK, finOps, List.map_map, List.map_map]
    refine List.map_congr_left fun o _ => ?_
    cases o <;> rfl
  have := C184_contracted (ε := ε) hF hE hK hKf ha hb hB0 hc hG hr haa hst hN
    (ops.map (Op.map fun x => (((fun _ : ℕ => false), (fun _ : ℕ => false)), x))) (by rw [← pushed_eq, e]; exact hx)
  rw [e, e', C161_iir_plain] at this
  exact this

/-! ### Non-vacuity -/

/-- The filter `y_n = 1.2 y_{n-1} - 0.72 y_{n-2} + x_n`. -/
theorem gain_example : Spec.Gain [-6 / 5, 18 / 25] 1 50 := by
  refine gain_of_series one_ne_zero (by norm_num) fun E R hR k => ?_
  have hn : ∀ σ : ℝ, σ ^ 2 = 1 → 7 / 6 ≤ ‖(5 / 6 : ℂ) * (1 + σ * Complex.I)‖ := by
    intro σ hσ
    have : ‖(5 / 6 : ℂ) * (1 + σ * Complex.I)‖ ^ 2 = 25 / 18 := by
      rw [← Complex.normSq_eq_norm_sq, Complex.normSq_apply]
      simp
      nlinarith
    nlinarith [norm_nonneg ((5 / 6 : ℂ) * (1 + σ * Complex.I))]
  have hfac : cseries [1, -6 / 5, 18 / 25] = PowerSeries.C (18 / 25 : ℂ)
      * ((PowerSeries.X - PowerSeries.C ((5 / 6 : ℂ) * (1 + (1 : ℝ) * Complex.I)))
      * (PowerSeries.X - PowerSeries.C ((5 / 6 : ℂ) * (1 + (-1 : ℝ) * Complex.I)))) := by
    have h1 : (5 / 6 : ℂ) * (1 + (1 : ℝ) * Complex.I) + (5 / 6 : ℂ) * (1 + (-1 : ℝ) * Complex.I) = 5 / 3 := by push_cast; ring
    have h2 : (5 / 6 : ℂ) * (1 + (1 : ℝ) * Complex.I) * ((5 / 6 : ℂ) * (1 + (-1 : ℝ) * Complex.I)) = 25 / 18 := by
      push_cast; linear_combination (-25 / 36 : ℂ) * Complex.I_sq
    generalize (5 / 6 : ℂ) * (1 + (1 : ℝ) * Complex.I) = r1 at *
    generalize (5 / 6 : ℂ) * (1 + (-1 : ℝ) * Complex.I) = r2 at *
    have e : (PowerSeries.X - PowerSeries.C r1) * (PowerSeries.X - PowerSeries.C r2)
        = PowerSeries.X * PowerSeries.X - PowerSeries.C (r1 + r2) * PowerSeries.X + PowerSeries.C (r1 * r2) := by
      rw [map_add, map_mul]; ring
    rw [e, h1, h2, cseries_eq]
    simp only [polyOf, List.length_cons, List.length_nil, Finset.sum_range_succ, Finset.sum_range_zero]
    rw [mul_add, mul_sub, ← mul_assoc (PowerSeries.C _) (PowerSeries.C _), ← map_mul, ← map_mul]
    norm_num
    rw [pow_two]
    ring
  rw [hfac] at hR
  have b1 : ∀ k, ‖PowerSeries.coeff k ((PowerSeries.X - PowerSeries.C ((5 / 6 : ℂ) * (1 + (1 : ℝ) * Complex.I)))
      * ((PowerSeries.X - PowerSeries.C ((5 / 6 : ℂ) * (1 + (-1 : ℝ) * Complex.I))) * E))‖ ≤ 25 / 18 * R := by
    intro k
    have := hR k
    rw [mul_assoc, PowerSeries.coeff_C_mul, norm_mul, mul_assoc] at this
    norm_num at this ⊢
    linarith
  have hR0 : 0 ≤ R := (norm_nonneg _).trans (hR 0)
  have inv6 : ∀ x : ℝ, 7 / 6 ≤ x → (x - 1)⁻¹ ≤ 6 := fun x hx => by
    rw [inv_le_comm₀ (by linarith) (by norm_num)]; linarith
  have n1 := hn 1 (by norm_num)
  have n2 := hn (-1) (by norm_num)
  have b2 := root_bound (by linarith) _ _ b1
  have b3 := root_bound (by linarith) _ _ b2 k
  have i1 := inv6 _ n1
  have i2 := inv6 _ n2
  have p1 : (‖(5 / 6 : ℂ) * (1 + (1 : ℝ) * Complex.I)‖ - 1)⁻¹ * (25 / 18 * R) ≤ 6 * (25 / 18 * R) :=
    mul_le_mul_of_nonneg_right i1 (by positivity)
  have p2 : (‖(5 / 6 : ℂ) * (1 + (-1 : ℝ) * Complex.I)‖ - 1)⁻¹ * ((‖(5 / 6 : ℂ) * (1 + (1 : ℝ) * Complex.I)‖ - 1)⁻¹ * (25 / 18 * R))
      ≤ 6 * (6 * (25 / 18 * R)) := by
    refine mul_le_mul i2 p1 ?_ (by norm_num)
    have : 0 ≤ (‖(5 / 6 : ℂ) * (1 + (1 : ℝ) * Complex.I)‖ - 1)⁻¹ := inv_nonneg.2 (by linarith)
    positivity
  linarith

/-- The values of this filter in binary64 are at most 51000 for inputs up to 1000, and they are never farther than `2^-27` from the exact values. -/
example (ops : List (Op ℝ)) (hx : ∀ x ∈ sinceClear ops, |x| ≤ 1000) :
    ∃ (s : Impulse.Infinite (X binary64)) (t : Impulse.Infinite (E 0)) (y z : ℝ),
      Impulse.Infinite.run ([1].map X.fin) ([-6 / 5, 18 / 25].map X.fin) (X.fin 1) (finOps ops) = some s ∧ s.value = X.fin y
      ∧ Impulse.Infinite.run ([1].map X.fin) ([-6 / 5, 18 / 25].map X.fin) (X.fin 1) (finOps ops) = some t ∧ t.value = X.fin z
      ∧ |y| ≤ 51000 ∧ |y - z| ≤ 2 ^ (-27 : Int) := by
  have hK := binary64_int (n := 1000000) (by norm_num)
  have hη : (2 : ℝ) ^ (-1075 : Int) ≤ 2 ^ (-100 : Int) := zpow_le_zpow_right₀ (by norm_num) (by norm_num)
  have hη0 : (0 : ℝ) ≤ 2 ^ (-1075 : Int) := by positivity
  obtain ⟨r, hr⟩ : ∃ r, r = Spec_iirRel (2 ^ (-53 : Int)) 2 := ⟨_, rfl⟩
  obtain ⟨a, ha⟩ : ∃ a, a = Spec_iirAbs (2 ^ (-53 : Int)) (2 ^ (-1075 : Int)) 2 1 := ⟨_, rfl⟩
  have hr0 : 0 ≤ r := by rw [hr]; norm_num [Spec_iirRel]
  have hr1 : r ≤ 2 ^ (-50 : Int) := by rw [hr]; norm_num [Spec_iirRel]
  have ha0 : 0 ≤ a := by rw [ha, Spec_iirAbs]; positivity
  have ha1 : a ≤ 2 ^ (-90 : Int) := by
    rw [ha, Spec_iirAbs]
    refine (mul_le_mul_of_nonneg_left hη (by positivity)).trans ?_
    norm_num
  have hA : (([1] : List ℝ).map abs).sum = 1 := by norm_num
  have hB : (([-6 / 5, 18 / 25] : List ℝ).map abs).sum = 48 / 25 := by
    simp only [List.map_cons, List.map_nil, List.sum_cons, List.sum_nil]
    rw [abs_of_neg (by norm_num), abs_of_pos (by norm_num)]
    norm_num
  have hM : Spec.gainBound r a [1] [-6 / 5, 18 / 25] 50 1000 ≤ 51000 := by
    rw [Spec.gainBound, hA, hB, div_le_iff₀ (by norm_num at hr1 ⊢; linarith)]
    norm_num at hr1 ha1 ⊢
    linarith
  have hM0 : 0 ≤ Spec.gainBound r a [1] [-6 / 5, 18 / 25] 50 1000 := by
    rw [Spec.gainBound, hA, hB]
    exact div_nonneg (by positivity) (by norm_num at hr1 ⊢; linarith)
  obtain ⟨s, t, y, z, h1, h2, h3, h4, h5, h6⟩ := C184_error (ε := 0) binary64_binary binary64_err hK.1 hK.2 (as := [1]) (bs := [-6 / 5, 18 / 25])
    (by simp) (by simp) (c := 1) (B := 1000) (by norm_num) one_ne_zero gain_example hr ha
    (by rw [hB]; norm_num at hr1 ⊢; linarith)
    (by
      rw [hA, hB, abs_one, min_self]
      norm_num at hr1 ha1 ⊢
      nlinarith) ops hx
  refine ⟨s, t, y, z, h1, h2, h3, h4, h5.trans hM, h6.trans ?_⟩
  rw [Spec.gainStep, hA, hB]
  have : r * (1000 * 1 + Spec.gainBound r a [1] [-6 / 5, 18 / 25] 50 1000 * (48 / 25)) ≤ 2 ^ (-50 : Int) * 98920 :=
    mul_le_mul hr1 (by linarith) (by positivity) (by positivity)
  norm_num at this ha1 ⊢
  linarith

end Verif.Props
