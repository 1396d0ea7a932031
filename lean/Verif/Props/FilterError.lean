import Verif.Proofs.Impulse
import Verif.Proofs.ErrorBound
import Verif.Proofs.Double
import Verif.Proofs.Nearest
/-
C103: rounding error of the FIR filter and of one step of the IIR filter.
-/
namespace Verif.Props
open Scalar Impulse

variable {F : Fmt} {p : Nat} {emin : Int} {u η : ℝ}

/-- The sum of `|c_k x_k|` over the newest values, the scale of the rounding error. -/
def Spec_firAbs (cs xs : List ℝ) : ℝ := (List.zipWith (fun x c => |x * c|) xs.reverse cs).sum

/-- The bound on the error of a sum of `n` products whose absolute values add up to `T`. -/
def Spec_dotError (u η : ℝ) (n : Nat) (T : ℝ) : ℝ := ((1 + u) ^ (n + 1) - 1) * T + 2 * n * (1 + u) ^ n * η

theorem round_within (hF : F.Binary p emin) {K r : ℝ} (hK : IsRep p emin K) (hKf : F.fits K) (h : |r| ≤ K) :
    (X.round r : X F) = X.fin (F.rnd r) := by
  have h' := abs_le.1 h
  rw [X.round, if_pos (hF.fits_between (hF.fits_neg hKf) hKf (hF.le_rnd hK.neg h'.1) (hF.rnd_le hK h'.2))]

theorem zipAbs_nonneg (l cs : List ℝ) : 0 ≤ (List.zipWith (fun x c => |x * c|) l cs).sum := by
  induction l generalizing cs with
  | nil => simp
  | cons x l ih =>
    cases cs with
    | nil => simp
    | cons c cs => rw [List.zipWith_cons_cons, List.sum_cons]; exact add_nonneg (abs_nonneg (x * c)) (ih cs)

theorem abs_zip_le (l cs : List ℝ) :
    |(List.zipWith (· * ·) l cs).sum| ≤ (List.zipWith (fun x c => |x * c|) l cs).sum := by
  induction l generalizing cs with
  | nil => simp
  | cons x l ih =>
    cases cs with
    | nil => simp
    | cons c cs =>
      simp only [List.zipWith_cons_cons, List.sum_cons]
      exact (abs_add_le _ _).trans (add_le_add le_rfl (ih cs))

/-- One more product. -/
theorem dot_step (hu : 0 ≤ u) (he : 0 ≤ η) {k : Nat} {a s t T q r : ℝ} (hs : |s| ≤ T) (ha : |a - s| ≤ Spec_dotError u η k T)
    (hq : |q - t| ≤ u * |t| + η) (hr : |r - (a + q)| ≤ u * |a + q| + η) :
    |r - (s + t)| ≤ Spec_dotError u η (k + 1) (T + |t|) ∧
      |a + q| ≤ (T + |t|) + Spec_dotError u η (k + 1) (T + |t|) := by
  have hT0 : 0 ≤ T := (abs_nonneg _).trans hs
  have ht0 := abs_nonneg t
  have pk : (1 : ℝ) ≤ (1 + u) ^ k := one_le_pow₀ (by linarith)
  have haq : |a + q| ≤ (T + |t|) + (Spec_dotError u η k T + (u * |t| + η)) := by
    have : a + q = (s + t) + ((a - s) + (q - t)) := by ring
    rw [this]
    exact (abs_add_le _ _).trans (add_le_add ((abs_add_le _ _).trans (add_le_add hs le_rfl))
      ((abs_add_le _ _).trans (add_le_add ha hq)))
  have hD : (1 + u) * (Spec_dotError u η k T + (u * |t| + η)) + u * (T + |t|) + η
      ≤ Spec_dotError u η (k + 1) (T + |t|) := by
    have hq1 : (1 + u) ^ (k + 1 + 1) = (1 + u) * (1 + u) ^ (k + 1) := by ring
    have h2 : (1 + u) ^ (k + 1) = (1 + u) * (1 + u) ^ k := by ring
    have e1 : (1 + u) * (1 + u) ≤ (1 + u) ^ (k + 1 + 1) := by
      rw [hq1, h2]
      exact mul_le_mul_of_nonneg_left (by nlinarith) (by linarith)
    have e2 : (2 + u) * η ≤ 2 * (1 + u) ^ (k + 1) * η := by
      refine mul_le_mul_of_nonneg_right ?_ he
      have : (1 + u) ^ 1 ≤ (1 + u) ^ (k + 1) := pow_le_pow_right₀ (by linarith) (by omega)
      linarith
    have e3 := mul_le_mul_of_nonneg_right e1 ht0
    simp only [Spec_dotError, Nat.cast_add, Nat.cast_one]
    rw [hq1] at e3 ⊢
    rw [h2] at e2 e3 ⊢
    nlinarith
  have hdk : 0 ≤ Spec_dotError u η k T := (abs_nonneg _).trans ha
  constructor
  · have : r - (s + t) = (r - (a + q)) + ((a - s) + (q - t)) := by ring
    rw [this]
    refine le_trans (abs_add_le _ _) (le_trans (add_le_add hr ((abs_add_le _ _).trans (add_le_add ha hq))) ?_)
    refine le_trans ?_ hD
    nlinarith [mul_le_mul_of_nonneg_left haq hu]
  · refine haq.trans (add_le_add le_rfl (le_trans ?_ hD))
    have : 0 ≤ u * (Spec_dotError u η k T + (u * |t| + η)) := by positivity
    have : 0 ≤ u * (T + |t|) := by positivity
    linarith

/-- The error if the result is a finite number: no intermediate result has overflowed. -/
theorem innerProduct_nonfin {acc : X F} (h : ∀ a, acc ≠ X.fin a) {l cs : List (X F)} {r : ℝ} :
    innerProduct acc l cs ≠ some (X.fin r) := by
  induction l generalizing acc cs with
  | nil => simpa [innerProduct] using h r
  | cons x l ih =>
    cases cs with
    | nil => simp [innerProduct]
    | cons c cs =>
      refine ih fun a => ?_
      generalize x * c = y
      cases acc with
      | fin b => exact absurd rfl (h b)
      | pinf => cases y <;> (intro h; cases h)
      | ninf => cases y <;> (intro h; cases h)
      | nan => cases y <;> (intro h; cases h)

theorem X.round_fin {r v : ℝ} (h : (X.round r : X F) = X.fin v) : v = F.rnd r := by
  rw [X.round] at h
  split_ifs at h
  exact (X.fin_inj.1 h).symm

theorem X.mul_fin_fin {a b v : ℝ} {x : X F} (h : X.fin v + X.fin a * X.fin b = x) (hx : ∃ r, x = X.fin r) :
    x = X.fin (F.rnd (v + F.rnd (a * b))) := by
  obtain ⟨r, rfl⟩ := hx
  obtain ⟨q, hq, hr⟩ := X.fin_of_add h
  rw [X.mul_fin] at hq
  rw [hr, X.round_fin hq]

theorem innerProduct_err_of_fin (hE : F.Err u η) {l cs : List ℝ} :
    ∀ {k : Nat} {a s T r : ℝ}, |s| ≤ T → |a - s| ≤ Spec_dotError u η k T →
      innerProduct (X.fin a : X F) (l.map X.fin) (cs.map X.fin) = some (X.fin r) →
      |r - (s + (List.zipWith (· * ·) l cs).sum)|
          ≤ Spec_dotError u η (k + l.length) (T + (List.zipWith (fun x c => |x * c|) l cs).sum) := by
  induction l generalizing cs with
  | nil =>
    intro k a s T r _ ha h
    simp only [List.map_nil, innerProduct, Option.some.injEq, X.fin_inj] at h
    subst h
    simpa using ha
  | cons x l ih =>
    cases cs with
    | nil => simp [innerProduct]
    | cons c cs =>
      intro k a s T r hs ha h
      simp only [List.zipWith_cons_cons, List.sum_cons, List.length_cons]
      simp only [List.map_cons, innerProduct] at h
      have hfin : ∃ r, (X.fin a + X.fin x * X.fin c : X F) = X.fin r := by
        by_contra hc
        push Not at hc
        exact innerProduct_nonfin hc h
      rw [X.mul_fin_fin rfl hfin] at h
      obtain ⟨h1, -⟩ := dot_step hE.u_nonneg hE.eta_nonneg hs ha (hE.err (x * c)) (hE.err (a + F.rnd (x * c)))
      have := ih ((abs_add_le s (x * c)).trans (add_le_add hs le_rfl)) h1 h
      rw [show k + 1 + l.length = k + (l.length + 1) by omega, add_assoc T, add_assoc s] at this
      exact this

/-- The rounding error of `std::inner_product`. -/
theorem innerProduct_err (hF : F.Binary p emin) (hE : F.Err u η) {K : ℝ} (hK : IsRep p emin K) (hKf : F.fits K)
    {l cs : List ℝ} (hl : l.length ≤ cs.length) :
    ∀ {k : Nat} {a s T : ℝ}, |s| ≤ T → |a - s| ≤ Spec_dotError u η k T →
      (T + (List.zipWith (fun x c => |x * c|) l cs).sum)
        + Spec_dotError u η (k + l.length) (T + (List.zipWith (fun x c => |x * c|) l cs).sum) ≤ K →
      ∃ r : ℝ, innerProduct (X.fin a : X F) (l.map X.fin) (cs.map X.fin) = some (X.fin r)
        ∧ |r - (s + (List.zipWith (· * ·) l cs).sum)|
          ≤ Spec_dotError u η (k + l.length) (T + (List.zipWith (fun x c => |x * c|) l cs).sum) := by
  have hu := hE.u_nonneg
  have he := hE.eta_nonneg
  induction l generalizing cs with
  | nil =>
    intro k a s T _ ha _
    exact ⟨a, by simp [innerProduct], by simpa using ha⟩
  | cons x l ih =>
    cases cs with
    | nil => simp at hl
    | cons c cs =>
      intro k a s T hs ha hfit
      have hN := zipAbs_nonneg l cs
      simp only [List.zipWith_cons_cons, List.sum_cons, List.length_cons] at hfit ⊢
      set N := (List.zipWith (fun x c => |x * c|) l cs).sum
      have hT0 : 0 ≤ T := (abs_nonneg _).trans hs
      have ht0 := abs_nonneg (x * c)
      have hmono : (T + |x * c|) + Spec_dotError u η (k + 1) (T + |x * c|)
          ≤ (T + (|x * c| + N)) + Spec_dotError u η (k + (l.length + 1)) (T + (|x * c| + N)) := by
        have a1 : (1 + u) ^ (k + 1 + 1) ≤ (1 + u) ^ (k + (l.length + 1) + 1) :=
          pow_le_pow_right₀ (by linarith) (by omega)
        have a2 : (1 + u) ^ (k + 1) ≤ (1 + u) ^ (k + (l.length + 1)) :=
          pow_le_pow_right₀ (by linarith) (by omega)
        have a3 : (1 : ℝ) ≤ (1 + u) ^ (k + 1 + 1) := one_le_pow₀ (by linarith)
        simp only [Spec_dotError]
        have b1 : ((1 + u) ^ (k + 1 + 1) - 1) * (T + |x * c|)
            ≤ ((1 + u) ^ (k + (l.length + 1) + 1) - 1) * (T + (|x * c| + N)) :=
          mul_le_mul (by linarith) (by linarith) (by linarith) (by linarith)
        have b2 : 2 * ((k + 1 : ℕ) : ℝ) * (1 + u) ^ (k + 1) * η
            ≤ 2 * ((k + (l.length + 1) : ℕ) : ℝ) * (1 + u) ^ (k + (l.length + 1)) * η := by
          refine mul_le_mul_of_nonneg_right ?_ he
          refine mul_le_mul ?_ a2 (by positivity) (by positivity)
          have : ((k + 1 : ℕ) : ℝ) ≤ ((k + (l.length + 1) : ℕ) : ℝ) := by exact_mod_cast (by omega)
          linarith
        linarith
      have hxcK : |x * c| ≤ K := by
        have : 0 ≤ Spec_dotError u η (k + 1) (T + |x * c|) := by
          simp only [Spec_dotError]
          have a3 : (1 : ℝ) ≤ (1 + u) ^ (k + 1 + 1) := one_le_pow₀ (by linarith)
          have := mul_nonneg (show (0:ℝ) ≤ (1 + u) ^ (k + 1 + 1) - 1 by linarith) (show 0 ≤ T + |x * c| by linarith)
          positivity
        linarith
      obtain ⟨h1, h2⟩ := dot_step hu he hs ha (hE.err (x * c)) (hE.err (a + F.rnd (x * c)))
      obtain ⟨r, hr1, hr2⟩ := ih (cs := cs) (by simpa using hl) (k := k + 1) (a := F.rnd (a + F.rnd (x * c)))
        (s := s + x * c) (T := T + |x * c|) ((abs_add_le _ _).trans (add_le_add hs le_rfl)) h1
        (by rw [show k + 1 + l.length = k + (l.length + 1) by omega, add_assoc T]; exact hfit)
      refine ⟨r, ?_, ?_⟩
      · simp only [List.map_cons, innerProduct, X.mul_fin]
        rw [round_within hF hK hKf hxcK, X.add_fin, round_within hF hK hKf (h2.trans (hmono.trans hfit))]
        exact hr1
      · rw [show k + 1 + l.length = k + (l.length + 1) by omega, add_assoc T, add_assoc s] at hr2
        exact hr2

theorem zipWith_take_abs (l cs : List ℝ) :
    List.zipWith (fun x c => |x * c|) (l.take cs.length) cs = List.zipWith (fun x c => |x * c|) l cs := by
  induction cs generalizing l with
  | nil => simp
  | cons c cs ih => cases l with
    | nil => simp
    | cons x l => simp only [List.length_cons, List.take_succ_cons, List.zipWith_cons_cons, ih]

/-- The inner product of the newest values with the coefficients. -/
theorem inner_newest_err (hF : F.Binary p emin) (hE : F.Err u η) (cs xs : List ℝ) {y : ℝ}
    (h : innerProduct (ofNat 0 : X F) ((xs.reverse.take cs.length).map X.fin) (cs.map X.fin) = some (X.fin y)) :
    |y - Spec.fir cs xs| ≤ Spec_dotError u η (min cs.length xs.length) (Spec_firAbs cs xs) := by
  rw [hF.ofNat_zero] at h
  have := innerProduct_err_of_fin (k := 0) (s := 0) (T := 0) hE (by simp) (by simp [Spec_dotError]) h
  rw [zipWith_take, zipWith_take_abs] at this
  simpa [Spec.fir_eq, Spec_firAbs] using this

/-- The value of the FIR filter after a push, in any arithmetic. -/
theorem fir_push (cs : List ℝ) (hc : cs ≠ []) (ops : List (Op ℝ)) (x : ℝ) :
    ∃ s : Impulse.Finite (X F), Impulse.Finite.run (cs.map X.fin) (finOps (ops ++ [.push x])) = some s
      ∧ innerProduct (ofNat 0 : X F) (((sinceClear (ops ++ [.push x])).reverse.take cs.length).map X.fin) (cs.map X.fin)
          = some s.value := by
  have hP : 1 ≤ cs.length := List.length_pos_iff.2 hc
  have hc' : (cs.map (X.fin : ℝ → X F)) ≠ [] := by simpa using hc
  obtain ⟨s, hs, h1, h2⟩ := Impulse.Finite.run_some hc' (finOps ops : List (Op (X F)))
  rw [sinceClear_finOps, List.length_map] at h2
  have hd := pushFront_take (P := cs.length) hP ((sinceClear ops).map (X.fin : ℝ → X F)).reverse (X.fin x)
  have e : (X.fin x :: ((sinceClear ops).map (X.fin : ℝ → X F)).reverse).take cs.length
      = ((sinceClear (ops ++ [.push x])).reverse.take cs.length).map X.fin := by
    rw [sinceClear_append_push, List.reverse_append, List.map_take, List.map_append]
    simp
  obtain ⟨r, hr⟩ := innerProduct_some (ofNat 0 : X F)
    (l := ((sinceClear (ops ++ [.push x])).reverse.take cs.length).map X.fin) (cs := cs.map X.fin) (by simp)
  refine ⟨{ s with input := s.input.pushFront (X.fin x), output := r }, ?_, hr⟩
  rw [finOps, List.map_append, Impulse.Finite.run, runOps_append]
  rw [Impulse.Finite.run, finOps] at hs
  rw [hs]
  show Impulse.Finite.push s (X.fin x) = _
  rw [Impulse.Finite.push, h1, h2, hd]
  simp only [e, hr, Option.map_some]

/-- C103, FIR filter: if the value is a finite number, it is the convolution up to the rounding error of
`n = min(P, number of values)` products. -/
theorem C103_fir (hF : F.Binary p emin) (hE : F.Err u η) (cs : List ℝ) (hc : cs ≠ []) (ops : List (Op ℝ)) (x : ℝ)
    {s : Impulse.Finite (X F)} (hs : Impulse.Finite.run (cs.map X.fin) (finOps (ops ++ [.push x])) = some s)
    {y : ℝ} (hy : s.value = X.fin y) :
    |y - Spec.fir cs (sinceClear (ops ++ [.push x]))|
      ≤ Spec_dotError u η (min cs.length (sinceClear (ops ++ [.push x])).length)
          (Spec_firAbs cs (sinceClear (ops ++ [.push x]))) := by
  obtain ⟨s', hs', h⟩ := fir_push (F := F) cs hc ops x
  rw [hs, Option.some.injEq] at hs'
  rw [← hs', hy] at h
  exact inner_newest_err hF hE cs _ h

/-- C103, FIR filter: the value is a finite number if the sum of the absolute values, enlarged by the error, does not
exceed the largest number. -/
theorem C103_fir_finite (hF : F.Binary p emin) (hE : F.Err u η) {K : ℝ} (hK : IsRep p emin K) (hKf : F.fits K)
    (cs : List ℝ) (hc : cs ≠ []) (ops : List (Op ℝ)) (x : ℝ)
    (hfit : Spec_firAbs cs (sinceClear (ops ++ [.push x]))
      + Spec_dotError u η (min cs.length (sinceClear (ops ++ [.push x])).length)
          (Spec_firAbs cs (sinceClear (ops ++ [.push x]))) ≤ K) :
    ∃ (s : Impulse.Finite (X F)) (y : ℝ), Impulse.Finite.run (cs.map X.fin) (finOps (ops ++ [.push x])) = some s
      ∧ s.value = X.fin y := by
  obtain ⟨s, hs, h⟩ := fir_push (F := F) cs hc ops x
  obtain ⟨r, hr, -⟩ := innerProduct_err (k := 0) (a := 0) (s := 0) (T := 0) hF hE hK hKf
    (l := (sinceClear (ops ++ [.push x])).reverse.take cs.length) (cs := cs) (by simp) (by simp) (by simp [Spec_dotError])
    (by rw [zipWith_take_abs]; simpa [Spec_firAbs] using hfit)
  rw [hF.ofNat_zero, hr, Option.some.injEq] at h
  exact ⟨s, r, hs, h.symm⟩

example : ∃ (s : Impulse.Finite (X binary64)) (y : ℝ),
    Impulse.Finite.run [X.fin 2, X.fin 1] (finOps [.push 100, .clear, .push 1, .push 5]) = some s ∧ s.value = X.fin y
      ∧ |y - 11| ≤ ((1 + 2 ^ (-53 : Int)) ^ 3 - 1) * 11 + 4 * (1 + 2 ^ (-53 : Int)) ^ 2 * 2 ^ (-1075 : Int) := by
  have hsc : sinceClear ([.push 100, .clear, .push 1] ++ [.push 5] : List (Op ℝ)) = [1, 5] := rfl
  have hK := binary64_int (n := 100) (by norm_num)
  push_cast at hK
  have hη : (2 : ℝ) ^ (-1075 : Int) ≤ 2 ^ (0 : Int) := zpow_le_zpow_right₀ (by norm_num) (by norm_num)
  have e : Spec_firAbs [2, 1] [1, 5] = 11 := by norm_num [Spec_firAbs]
  have e2 : Spec.fir [2, 1] [1, 5] = 11 := by norm_num [Spec.fir_eq]
  obtain ⟨s, y, h1, h2⟩ := C103_fir_finite binary64_binary binary64_err hK.1 hK.2 [2, 1] (by simp)
    [.push 100, .clear, .push 1] 5 (by
      rw [hsc, e]
      simp only [Spec_dotError, List.length_cons, List.length_nil]
      norm_num at hη ⊢
      linarith)
  have h3 := C103_fir binary64_binary binary64_err [2, 1] (by simp) _ _ h1 h2
  rw [hsc, e, e2] at h3
  refine ⟨s, y, h1, h2, h3.trans (le_of_eq ?_)⟩
  norm_num [Spec_dotError]

/-- The bound on the residual of the difference equation. -/
def Spec_iirError (u η : ℝ) (n : Nat) (c T : ℝ) : ℝ :=
  ((1 + u) ^ (n + 3) - 1) * T + ((4 * n + 1) * (1 + u) ^ (n + 2) + |c|) * η

theorem dotError_mono (hu : 0 ≤ u) (he : 0 ≤ η) {n m : Nat} (h : n ≤ m) {T : ℝ} (hT : 0 ≤ T) :
    Spec_dotError u η n T ≤ Spec_dotError u η m T := by
  have a1 : (1 + u) ^ (n + 1) ≤ (1 + u) ^ (m + 1) := pow_le_pow_right₀ (by linarith) (by omega)
  have a2 : (1 + u) ^ n ≤ (1 + u) ^ m := pow_le_pow_right₀ (by linarith) h
  have a3 : (n : ℝ) ≤ m := by exact_mod_cast h
  refine add_le_add (mul_le_mul_of_nonneg_right (by linarith) hT) (mul_le_mul_of_nonneg_right ?_ he)
  exact mul_le_mul (by linarith) a2 (by positivity) (by positivity)

/-- Division and subtraction after the two inner products. -/
theorem iir_step (hE : F.Err u η) {n : Nat} {c A B S T a b y : ℝ} (hc : c ≠ 0) (hA : |A| ≤ S) (hB : |B| ≤ T)
    (ha : |a - A| ≤ Spec_dotError u η n S) (hb : |b - B| ≤ Spec_dotError u η n T)
    (hy : y = F.rnd (F.rnd (a - b) / c)) :
    |c * y - (A - B)| ≤ Spec_iirError u η n c (S + T) := by
  have hu := hE.u_nonneg
  have he := hE.eta_nonneg
  have hS0 : 0 ≤ S := (abs_nonneg _).trans hA
  have hT0 : 0 ≤ T := (abs_nonneg _).trans hB
  have h1 := hE.err (a - b)
  have h2 := hE.err (F.rnd (a - b) / c)
  rw [← hy] at h2
  set d := F.rnd (a - b)
  have hD : |(a - b) - (A - B)| ≤ Spec_dotError u η n S + Spec_dotError u η n T := by
    rw [show (a - b) - (A - B) = (a - A) - (b - B) by ring]
    exact (abs_sub _ _).trans (add_le_add ha hb)
  set D := Spec_dotError u η n S + Spec_dotError u η n T with hDdef
  have hAB : |A - B| ≤ S + T := (abs_sub _ _).trans (add_le_add hA hB)
  have hab : |a - b| ≤ (S + T) + D := by
    have : |(A - B) + ((a - b) - (A - B))| ≤ _ := abs_add_le _ _
    rw [add_sub_cancel] at this
    linarith
  have hd : |d - (A - B)| ≤ (1 + u) * D + u * (S + T) + η := by
    have : |(d - (a - b)) + ((a - b) - (A - B))| ≤ _ := abs_add_le _ _
    rw [sub_add_sub_cancel] at this
    nlinarith [mul_le_mul_of_nonneg_left hab hu]
  have hd2 : |d| ≤ (S + T) + ((1 + u) * D + u * (S + T) + η) := by
    have : |(A - B) + (d - (A - B))| ≤ _ := abs_add_le _ _
    rw [add_sub_cancel] at this
    linarith
  have hcy : |c * y - d| ≤ u * |d| + |c| * η := by
    have e : c * y - d = c * (y - d / c) := by field_simp
    have e2 : |c| * |d / c| = |d| := by rw [← abs_mul]; congr 1; field_simp
    rw [e, abs_mul]
    calc |c| * |y - d / c| ≤ |c| * (u * |d / c| + η) := mul_le_mul_of_nonneg_left h2 (abs_nonneg _)
      _ = u * (|c| * |d / c|) + |c| * η := by ring
      _ = _ := by rw [e2]
  have htot : |c * y - (A - B)| ≤ (1 + u) * ((1 + u) * D + u * (S + T) + η) + u * (S + T) + |c| * η := by
    have : |(c * y - d) + (d - (A - B))| ≤ _ := abs_add_le _ _
    rw [sub_add_sub_cancel] at this
    nlinarith [mul_le_mul_of_nonneg_left hd2 hu]
  refine htot.trans ?_
  have hDe : D = ((1 + u) ^ (n + 1) - 1) * (S + T) + 4 * n * (1 + u) ^ n * η := by
    rw [hDdef, Spec_dotError, Spec_dotError]; ring
  have p1 : (1 + u) ^ (n + 1) = (1 + u) * (1 + u) ^ n := by ring
  have p2 : (1 + u) ^ (n + 2) = (1 + u) * ((1 + u) * (1 + u) ^ n) := by ring
  have p3 : (1 + u) ^ (n + 3) = (1 + u) * ((1 + u) * ((1 + u) * (1 + u) ^ n)) := by ring
  have pn : (1 : ℝ) ≤ (1 + u) ^ n := one_le_pow₀ (by linarith)
  rw [hDe, Spec_iirError, p1, p2, p3]
  set q := (1 + u) ^ n
  have : (1 + u) * η ≤ (1 + u) * ((1 + u) * q) * η := by
    refine mul_le_mul_of_nonneg_right (le_mul_of_one_le_right (by linarith) ?_) he
    nlinarith
  nlinarith

theorem X.sub_nonfin {a b : X F} {r : ℝ} (h : a - b = X.fin r) : ∃ x y, a = X.fin x ∧ b = X.fin y := by
  cases a <;> cases b <;> first | exact ⟨_, _, rfl, rfl⟩ | cases h

/-- A quotient by a finite number is finite only if the numerator is. -/
theorem X.div_nonfin {a : X F} {c r : ℝ} (h : a / X.fin c = X.fin r) : ∃ x, a = X.fin x := by
  have key : ∀ v : X F, (v = X.pinf ∨ v = X.ninf) → v ≠ X.fin r := by
    rintro v (rfl | rfl) <;> exact fun h => by cases h
  cases a with
  | fin x => exact ⟨x, rfl⟩
  | pinf =>
    refine absurd h (key _ ?_)
    show (if c < 0 then X.ninf else X.pinf) = _ ∨ (if c < 0 then X.ninf else X.pinf) = _
    split_ifs <;> simp
  | ninf =>
    refine absurd h (key _ ?_)
    show (if c < 0 then X.pinf else X.ninf) = _ ∨ (if c < 0 then X.pinf else X.ninf) = _
    split_ifs <;> simp
  | nan => cases h

/-- `ys` are the values of the filter after each of the pushes, all of them finite numbers. -/
def IIRValues (F : Fmt) (as bs : List ℝ) (c : ℝ) (xs ys : List ℝ) : Prop :=
  ys.length = xs.length ∧
    ∀ k < xs.length, ∃ s : Impulse.Infinite (X F),
      Impulse.Infinite.run (as.map X.fin) (bs.map X.fin) (X.fin c) (finOps ((xs.take (k + 1)).map .push)) = some s
      ∧ s.value = X.fin (ys.getD k 0)

theorem iir_states (hF : F.Binary p emin) (hE : F.Err u η) {as bs : List ℝ} (ha : as ≠ []) (hb : bs ≠ []) {c : ℝ}
    (hc : c ≠ 0) (xs : List ℝ) : ∀ ys : List ℝ, IIRValues F as bs c xs ys →
    Impulse.Infinite.run (as.map X.fin) (bs.map X.fin) (X.fin c) (finOps (xs.map .push))
        = some { inputWindow := ⟨as.length, (xs.reverse.take as.length).map X.fin⟩
                 inputCoefficients := as.map X.fin
                 outputWindow := ⟨bs.length, (ys.reverse.take bs.length).map X.fin⟩
                 outputScale := (X.fin c : X F)
                 outputCoefficients := bs.map X.fin }
    ∧ ∀ k < xs.length, |c * ys.getD k 0 - (Spec.fir as (xs.take (k + 1)) - Spec.fir bs (ys.take k))|
        ≤ Spec_iirError u η (max as.length bs.length) c
            (Spec_firAbs as (xs.take (k + 1)) + Spec_firAbs bs (ys.take k)) := by
  have hP : 1 ≤ as.length := List.length_pos_iff.2 ha
  have hQ : 1 ≤ bs.length := List.length_pos_iff.2 hb
  induction xs using List.reverseRecOn with
  | nil =>
    intro ys hy
    obtain rfl : ys = [] := List.length_eq_zero_iff.1 hy.1
    exact ⟨by simp [Impulse.Infinite.run, runOps, finOps, Impulse.Infinite.init, Deque.init], by simp⟩
  | append_singleton xs x ih =>
    intro ys hy
    obtain ⟨ys, y, rfl⟩ : ∃ zs z, ys = zs ++ [z] := by
      have := hy.1
      rcases List.eq_nil_or_concat ys with h | ⟨zs, z, h⟩
      · rw [h] at this; simp at this
      · exact ⟨zs, z, by simpa using h⟩
    have hlen : ys.length = xs.length := by have := hy.1; simpa using this
    obtain ⟨hst, hres⟩ := ih ys ⟨hlen, fun k hk => by
      obtain ⟨s, h1, h2⟩ := hy.2 k (by simp; omega)
      rw [List.take_append_of_le_length (by omega)] at h1
      refine ⟨s, h1, ?_⟩
      rw [h2, List.getD_append _ _ _ _ (by omega)]⟩
    have hd := pushFront_take (P := as.length) hP (xs.reverse.map (X.fin : ℝ → X F)) (X.fin x)
    have hd2 := fun z => pushFront_take (P := bs.length) hQ (ys.reverse.map (X.fin : ℝ → X F)) z
    simp only [← List.map_cons, ← List.map_take] at hd hd2
    obtain ⟨ff, hff⟩ := innerProduct_some (ofNat 0 : X F)
      (l := ((x :: xs.reverse).take as.length).map X.fin) (cs := as.map X.fin) (by simp)
    obtain ⟨fb, hfb⟩ := innerProduct_some (ofNat 0 : X F)
      (l := (ys.reverse.take bs.length).map X.fin) (cs := bs.map X.fin) (by simp)
    have hrun : Impulse.Infinite.run (as.map X.fin) (bs.map X.fin) (X.fin c) (finOps ((xs ++ [x]).map .push))
        = some { inputWindow := ⟨as.length, ((x :: xs.reverse).take as.length).map X.fin⟩
                 inputCoefficients := as.map X.fin
                 outputWindow := ⟨bs.length, (((ff - fb) / X.fin c) :: ys.reverse.map X.fin).take bs.length⟩
                 outputScale := (X.fin c : X F)
                 outputCoefficients := bs.map X.fin } := by
      rw [List.map_append, finOps, List.map_append, Impulse.Infinite.run, runOps_append]
      rw [Impulse.Infinite.run, finOps] at hst
      rw [hst]
      show Impulse.Infinite.push _ (X.fin x) = _
      simp only [Impulse.Infinite.push, hd, hff, hfb, Option.bind_eq_bind, Option.bind_some, hd2]
      rfl
    obtain ⟨s, h1, h2⟩ := hy.2 xs.length (by simp)
    rw [List.take_of_length_le (by simp), hrun, Option.some.injEq] at h1
    have hval : (ff - fb) / X.fin c = X.fin y := by
      rw [← h1, List.getD_append_right _ _ _ _ (by omega), hlen] at h2
      obtain ⟨q, hq⟩ : ∃ q, bs.length = q + 1 := ⟨bs.length - 1, by omega⟩
      simpa [Impulse.Infinite.value, hq] using h2
    refine ⟨?_, ?_⟩
    · rw [hrun, hval]
      simp [List.map_take]
    · intro k hk
      rcases Nat.lt_or_ge k xs.length with hk' | hk'
      · rw [List.getD_append _ _ _ _ (by omega), List.take_append_of_le_length (by omega),
          List.take_append_of_le_length (by omega)]
        exact hres k hk'
      · obtain rfl : k = xs.length := by simp at hk; omega
        rw [List.take_of_length_le (by simp), ← hlen, List.take_left', List.getD_append_right _ _ _ _ le_rfl]
        · simp only [Nat.sub_self, List.getD_cons_zero]
          obtain ⟨d, hdv⟩ := X.div_nonfin hval
          obtain ⟨a, b, rfl, rfl⟩ := X.sub_nonfin hdv
          have ha' := inner_newest_err hF hE as (xs ++ [x]) (y := a) (by simpa using hff)
          have hb' := inner_newest_err hF hE bs ys hfb
          rw [X.sub_fin] at hval hdv
          rw [hdv, X.round_fin hdv, X.div_fin_of_ne _ hc] at hval
          have n1 : 0 ≤ Spec_firAbs as (xs ++ [x]) := zipAbs_nonneg _ _
          have n2 : 0 ≤ Spec_firAbs bs ys := zipAbs_nonneg _ _
          refine iir_step hE hc ?_ ?_
            (ha'.trans (dotError_mono hE.u_nonneg hE.eta_nonneg ((min_le_left _ _).trans (le_max_left _ _)) n1))
            (hb'.trans (dotError_mono hE.u_nonneg hE.eta_nonneg ((min_le_left _ _).trans (le_max_right _ _)) n2))
            (X.round_fin hval)
          · rw [Spec.fir_eq]; exact abs_zip_le _ _
          · rw [Spec.fir_eq]; exact abs_zip_le _ _
        · rfl

/-- C103, IIR filter: the computed values satisfy the difference equation up to rounding errors, as long as they are
finite numbers. -/
theorem C103_iir (hF : F.Binary p emin) (hE : F.Err u η) {as bs : List ℝ} (ha : as ≠ []) (hb : bs ≠ []) {c : ℝ}
    (hc : c ≠ 0) (xs ys : List ℝ) (hy : IIRValues F as bs c xs ys) :
    ∀ k < xs.length, |c * ys.getD k 0 - (Spec.fir as (xs.take (k + 1)) - Spec.fir bs (ys.take k))|
        ≤ Spec_iirError u η (max as.length bs.length) c
            (Spec_firAbs as (xs.take (k + 1)) + Spec_firAbs bs (ys.take k)) :=
  (iir_states hF hE ha hb hc xs ys hy).2

/-- The summing filter `y_n = x_n + y_{n-1}` with the input 1, 2. -/
example : IIRValues binary64 [1] [-1] 1 [1, 2] [1, 3] := by
  have r : ∀ n : Int, |n| ≤ 2 ^ 53 → (X.round (n : ℝ) : X binary64) = X.fin n := fun n h => round64_int n rfl h
  have r0 := r 0 (by norm_num)
  have r1 := r 1 (by norm_num)
  have r2 := r 2 (by norm_num)
  have r3 := r 3 (by norm_num)
  have rm := r (-1) (by norm_num)
  push_cast at r0 r1 r2 r3 rm
  have o : (ofNat 0 : X binary64) = X.fin 0 := binary64_binary.ofNat_zero
  refine ⟨rfl, fun k hk => ?_⟩
  obtain rfl | rfl : k = 0 ∨ k = 1 := by simp at hk; omega
  · refine ⟨_, rfl, ?_⟩
    show ((ofNat 0 + X.fin 1 * X.fin 1) - ofNat 0) / X.fin 1 = (X.fin 1 : X binary64)
    rw [o, X.mul_fin, mul_one, r1, X.add_fin, zero_add, r1, X.sub_fin, sub_zero, r1, X.div_fin_of_ne _ one_ne_zero, div_one, r1]
  · refine ⟨_, rfl, ?_⟩
    show ((ofNat 0 + X.fin 2 * X.fin 1)
      - (ofNat 0 + (((ofNat 0 + X.fin 1 * X.fin 1) - ofNat 0) / X.fin 1) * X.fin (-1))) / X.fin 1 = (X.fin 3 : X binary64)
    rw [o, X.mul_fin, X.mul_fin, mul_one, mul_one, r1, r2, X.add_fin, X.add_fin, zero_add, zero_add, r1, r2, X.sub_fin 1,
      sub_zero, r1, X.div_fin_of_ne _ one_ne_zero, div_one, r1, X.mul_fin, one_mul, rm, X.add_fin, zero_add, rm, X.sub_fin,
      show (2 : ℝ) - -1 = 3 by norm_num, r3, X.div_fin_of_ne _ one_ne_zero, div_one, r3]

end Verif.Props
