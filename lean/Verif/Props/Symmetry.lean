import Verif.Props.Negation
import Verif.Props.Monotone
import Verif.Props.VarianceError
/-
C101: exchanging the two coordinates does not change the covariance, with rounding.
-/
namespace Verif.Props
open Scalar

variable {F : Fmt} {p : Nat} {emin : Int} {u η : ℝ} {w N : Nat}

/-- The calls with the coordinates exchanged. -/
abbrev swapOps {α : Type} (ops : List (Op (α × α))) : List (Op (α × α)) := ops.map (Op.map Prod.swap)

/-- C101 as stated, for the cumulative covariance. -/
def C101_Statement (F : Fmt) (w : Nat) : Prop :=
  ∀ ops : List (Op (X F × X F)), (Cumulative.Comoment.run (swapOps ops) : Cumulative.Comoment w (X F)).variance
    = (Cumulative.Comoment.run ops : Cumulative.Comoment w (X F)).variance

open Cumulative in
/-- The covariance of two pairs as the code computes it. -/
theorem covariance_pair (hF : F.Binary p emin) {x₁ y₁ x₂ y₂ : ℝ} (hx : IsRep p emin x₁) (hxf : F.fits x₁)
    (hy : IsRep p emin y₁) (hyf : F.fits y₁) (hw : 2 < 2 ^ w) {c : ℝ} (hc : IsRep p emin c) (hcf : F.fits c)
    (h : ((X.fin x₂ - (X.fin x₁ + (X.fin x₂ - X.fin x₁) / ofNat 2)) * (X.fin y₂ - X.fin y₁) : X F) = X.fin c) :
    (Comoment.run [.push (X.fin x₁, X.fin y₁), .push (X.fin x₂, X.fin y₂)] : Comoment w (X F)).variance
      = X.fin c / ofNat 2 := by
  have h1 : ((0 : SizeT w) + 1).toNat = 1 := by
    rw [show (0 : SizeT w) + 1 = BitVec.ofNat w 1 by simp, toNat_ofNat_lt (by omega)]
  have h2 : ((0 : SizeT w) + 1 + 1).toNat = 2 := by
    rw [show (0 : SizeT w) + 1 + 1 = BitVec.ofNat w 2 by
      rw [show (2 : Nat) = 1 + 1 from rfl, BitVec.ofNat_add]; simp, toNat_ofNat_lt hw]
  have m1 : ∀ a : ℝ, IsRep p emin a → F.fits a →
      (ofNat 0 + (X.fin a - ofNat 0) / ofSize ((0 : SizeT w) + 1) : X F) = X.fin a := by
    intro a ha haf
    rw [ofSize, h1, hF.ofNat_zero, hF.sub_zero ha haf, hF.div_one ha haf, hF.zero_add ha haf]
  have hcen : (Comoment.run [.push (X.fin x₁, X.fin y₁), .push (X.fin x₂, X.fin y₂)] : Comoment w (X F)).center
      = X.fin c := by
    show ofNat 0 + (X.fin x₁ - (ofNat 0 + (X.fin x₁ - ofNat 0) / ofSize ((0 : SizeT w) + 1))) * (X.fin y₁ - ofNat 0)
      + (X.fin x₂ - ((ofNat 0 + (X.fin x₁ - ofNat 0) / ofSize ((0 : SizeT w) + 1))
          + (X.fin x₂ - (ofNat 0 + (X.fin x₁ - ofNat 0) / ofSize ((0 : SizeT w) + 1))) / ofSize ((0 : SizeT w) + 1 + 1)))
        * (X.fin y₂ - (ofNat 0 + (X.fin y₁ - ofNat 0) / ofSize ((0 : SizeT w) + 1))) = _
    rw [m1 _ hx hxf, m1 _ hy hyf, ofSize, h2, h, hF.sub_self, hF.ofNat_zero, hF.sub_zero hy hyf, hF.zero_mul,
      hF.zero_add (isRep_zero _ _) hF.fits_zero, hF.zero_add hc hcf]
  have hsz : (Comoment.run [.push (X.fin x₁, X.fin y₁), .push (X.fin x₂, X.fin y₂)] : Comoment w (X F)).size
      = (0 : SizeT w) + 1 + 1 := rfl
  rw [Comoment.variance, hcen, hsz, ofSize, h2, if_pos]
  show (0 : SizeT w) < _
  rw [BitVec.lt_def, h2]
  simp

/-- The pairs (1, 0) and (2^53, 1): covariance 2^51. -/
theorem C101_one_way : (Cumulative.Comoment.run [.push (X.fin 1, X.fin 0), .push (X.fin (2 ^ 53), X.fin 1)]
    : Cumulative.Comoment 64 (X binary64)).variance = X.fin (2 ^ 51) := by
  rw [covariance_pair (c := 2 ^ 52) binary64_binary binary64_binary.isRep_one binary64_binary.fits_one (isRep_zero _ _)
    binary64_binary.fits_zero (by norm_num)
    (by have := (double (2 ^ 52) 0 (by norm_num) (by norm_num) (by norm_num)).1; norm_num at this ⊢; exact this)
    (by have := (double (2 ^ 52) 0 (by norm_num) (by norm_num) (by norm_num)).2; norm_num at this ⊢; exact this)]
  · rw [ofNat64 (by norm_num), X.div_fin_of_ne _ (by norm_num)]
    exact (round64 (2 ^ 51) 0 (by norm_num) (by norm_num) (by norm_num) (by norm_num)).trans (by norm_num)
  · have r1 : (X.fin (2 ^ 53) - X.fin 1 : X binary64) = X.fin (2 ^ 53 - 1) := by
      rw [X.sub_fin]
      exact round64 (2 ^ 53 - 1) 0 (by norm_num) (by norm_num) (by norm_num) (by norm_num)
    have r2 : (X.fin (2 ^ 53 - 1) / ofNat 2 : X binary64) = X.fin (2 ^ 52 - 1 / 2) := by
      rw [ofNat64 (by norm_num), X.div_fin_of_ne _ (by norm_num)]
      exact (round64 (2 ^ 53 - 1) (-1) (by norm_num) (by norm_num) (by norm_num) (by norm_num)).trans (by norm_num)
    have r3 : (X.fin 1 + X.fin (2 ^ 52 - 1 / 2) : X binary64) = X.fin (2 ^ 52) := by
      rw [X.add_fin]
      refine round64_of (2 ^ 52) 0 ?_ (by norm_num) (by norm_num) (by norm_num) (by norm_num)
      rw [rnd64_tie (2 ^ 52) 0 (by norm_num) (by rw [abs_of_pos (by norm_num)]; norm_num)
        (by rw [abs_of_pos (by norm_num)]; norm_num) (by norm_num), if_pos (by decide)]
      norm_num
    have r4 : (X.fin (2 ^ 53) - X.fin (2 ^ 52) : X binary64) = X.fin (2 ^ 52) := by
      rw [X.sub_fin]
      exact (round64 (2 ^ 52) 0 (by norm_num) (by norm_num) (by norm_num) (by norm_num)).trans (by norm_num)
    rw [r1, r2, r3, r4, binary64_binary.sub_zero binary64_binary.isRep_one binary64_binary.fits_one, X.mul_fin]
    exact (round64 (2 ^ 52) 0 (by norm_num) (by norm_num) (by norm_num) (by norm_num)).trans (by norm_num)

/-- The pairs (0, 1) and (1, 2^53): covariance 2^51 - 1/4. -/
theorem C101_other_way : (Cumulative.Comoment.run [.push (X.fin 0, X.fin 1), .push (X.fin 1, X.fin (2 ^ 53))]
    : Cumulative.Comoment 64 (X binary64)).variance = X.fin (2 ^ 51 - 1 / 4) := by
  rw [covariance_pair (c := 2 ^ 52 - 1 / 2) binary64_binary (isRep_zero _ _)
    binary64_binary.fits_zero binary64_binary.isRep_one binary64_binary.fits_one (by norm_num)
    (by have := (double (2 ^ 53 - 1) (-1) (by norm_num) (by norm_num) (by norm_num)).1; norm_num at this ⊢; exact this)
    (by have := (double (2 ^ 53 - 1) (-1) (by norm_num) (by norm_num) (by norm_num)).2; norm_num at this ⊢; exact this)]
  · rw [ofNat64 (by norm_num), X.div_fin_of_ne _ (by norm_num)]
    exact (round64 (2 ^ 53 - 1) (-2) (by norm_num) (by norm_num) (by norm_num) (by norm_num)).trans (by norm_num)
  · have r1 : (X.fin (2 ^ 53) - X.fin 1 : X binary64) = X.fin (2 ^ 53 - 1) := by
      rw [X.sub_fin]
      exact round64 (2 ^ 53 - 1) 0 (by norm_num) (by norm_num) (by norm_num) (by norm_num)
    have r2 : (X.fin 1 / ofNat 2 : X binary64) = X.fin (1 / 2) := by
      rw [ofNat64 (by norm_num), X.div_fin_of_ne _ (by norm_num)]
      exact (round64 1 (-1) (by norm_num) (by norm_num) (by norm_num) (by norm_num)).trans (by norm_num)
    have hh := double 1 (-1) (by norm_num) (by norm_num) (by norm_num)
    rw [show ((1 : Int) : ℝ) * 2 ^ (-1 : Int) = 1 / 2 by norm_num] at hh
    have r4 : (X.fin 1 - X.fin (1 / 2) : X binary64) = X.fin (1 / 2) := by
      rw [X.sub_fin]
      exact (round64 1 (-1) (by norm_num) (by norm_num) (by norm_num) (by norm_num)).trans (by norm_num)
    rw [binary64_binary.sub_zero binary64_binary.isRep_one binary64_binary.fits_one, r2, binary64_binary.zero_add hh.1 hh.2,
      r4, r1, X.mul_fin]
    exact (round64 (2 ^ 53 - 1) (-1) (by norm_num) (by norm_num) (by norm_num) (by norm_num)).trans (by norm_num)

/-- C101 is violated for `double`. -/
theorem C101_violated : ¬ C101_Statement binary64 64 := by
  intro h
  have := h [.push (X.fin 1, X.fin 0), .push (X.fin (2 ^ 53), X.fin 1)]
  rw [C101_one_way] at this
  have e : (Cumulative.Comoment.run [.push (X.fin 0, X.fin 1), .push (X.fin 1, X.fin (2 ^ 53))]
    : Cumulative.Comoment 64 (X binary64)).variance = X.fin (2 ^ 51) := this
  rw [C101_other_way, X.fin_inj] at e
  norm_num at e

/-- C101, the part that holds for the cumulative covariance (exact arithmetic: C09): with rounding the two results
differ by at most `(12 n + 136) u A B` for coordinates of size at most `A` and `B`.  Missing: equality (violated). -/
theorem C101_cumulative_partial (hF : F.Binary p emin) (hE : F.Err u η) {A B K : ℝ} (hA0 : 0 ≤ A) (hB0 : 0 ≤ B)
    (hηA : η ≤ u * A) (hηB : η ≤ u * B) (hηAB : η ≤ u * (A * B)) (hK : IsRep p emin K) (hKf : F.fits K)
    (ops : List (Op (ℝ × ℝ))) (hne : sinceClear ops ≠ []) (hdx : F.Data p emin (Spec.xsOf (sinceClear ops)))
    (hdy : F.Data p emin (Spec.ysOf (sinceClear ops)))
    (hw : (sinceClear ops).length < 2 ^ w) (hp : (sinceClear ops).length ≤ 2 ^ p) (hfit : F.fits ((sinceClear ops).length : ℝ))
    (hA : ∀ q ∈ sinceClear ops, |q.1| ≤ A) (hB : ∀ q ∈ sinceClear ops, |q.2| ≤ B)
    (hBK : 8 * (sinceClear ops).length * (A * B) ≤ K) (hsmall : (6 * (sinceClear ops).length + 65) * u ≤ 1) :
    ∃ c c' : ℝ, (Cumulative.Comoment.run (finOps2 ops) : Cumulative.Comoment w (X F)).variance = X.fin c
      ∧ (Cumulative.Comoment.run (finOps2 (swapOps ops)) : Cumulative.Comoment w (X F)).variance = X.fin c'
      ∧ |c - c'| ≤ (12 * (sinceClear ops).length + 136) * (u * (A * B)) := by
  have e : sinceClear (swapOps ops) = (sinceClear ops).map Prod.swap := sinceClear_map _ _
  have ex : Spec.xsOf (sinceClear (swapOps ops)) = Spec.ysOf (sinceClear ops) := by
    rw [e, Spec.xsOf, Spec.ysOf, List.map_map]; rfl
  have ey : Spec.ysOf (sinceClear (swapOps ops)) = Spec.xsOf (sinceClear ops) := by
    rw [e, Spec.xsOf, Spec.ysOf, List.map_map]; rfl
  have el : (sinceClear (swapOps ops)).length = (sinceClear ops).length := by rw [e, List.length_map]
  obtain ⟨c, h1, h2⟩ := C70_covariance_error (w := w) hF hE hA0 hB0 hηA hηB hηAB hK hKf ops hne hdx hdy hw hp hfit hA hB
    hBK hsmall
  obtain ⟨c', h1', h2'⟩ := C70_covariance_error (w := w) hF hE hB0 hA0 hηB hηA (by rwa [mul_comm B]) hK hKf (swapOps ops)
    (by rw [e]; simpa using hne) (by rw [ex]; exact hdy) (by rw [ey]; exact hdx) (by rw [el]; exact hw) (by rw [el]; exact hp)
    (by rw [el]; exact hfit)
    (fun q hq => by rw [e] at hq; obtain ⟨q', hq', rfl⟩ := List.mem_map.1 hq; exact hB q' hq')
    (fun q hq => by rw [e] at hq; obtain ⟨q', hq', rfl⟩ := List.mem_map.1 hq; exact hA q' hq')
    (by rw [el, mul_comm B]; exact hBK) (by rw [el]; exact hsmall)
  have hcov : Spec.covariance (sinceClear (swapOps ops)) = Spec.covariance (sinceClear ops) := by
    rw [e, Spec.covariance, Spec.covariance, Spec.cosum_swap, List.length_map]
  refine ⟨c, c', h1, h1', ?_⟩
  rw [el, hcov, mul_comm B] at h2'
  rw [abs_le] at h2 h2' ⊢
  constructor <;> linarith [h2.1, h2.2, h2'.1, h2'.2]

theorem X.mul_comm' (a b : X F) : a * b = b * a := by
  cases a <;> cases b <;> first
    | rfl
    | (rw [X.mul_fin, X.mul_fin, _root_.mul_comm])

/-- The state for exchanged coordinates. -/
def wcoSwap (s : Window.Comoment N (X F)) : Window.Comoment N (X F) :=
  { window := ⟨s.window.items.map Prod.swap⟩, sumX := s.sumY, sumY := s.sumX, sumXY := s.sumXY }

theorem wcoSwap_push (s : Window.Comoment N (X F)) (q : X F × X F) : (wcoSwap s).push q.swap = (s.push q).map wcoSwap := by
  unfold Window.Comoment.push
  have h1 : (wcoSwap s).window.full = s.window.full := Neg.ring_map_full _ _
  have h2 : (wcoSwap s).window.front = s.window.front.map Prod.swap := Neg.ring_map_front _ _
  have h4 : (wcoSwap s).window.pushBack q.swap = ⟨(s.window.pushBack q).items.map Prod.swap⟩ :=
    Neg.ring_map_push Prod.swap _ q
  dsimp only [Prod.fst_swap, Prod.snd_swap]
  have h4' : (wcoSwap s).window.pushBack (q.2, q.1) = ⟨(s.window.pushBack q).items.map Prod.swap⟩ := h4
  rw [h1, h2, h4']
  by_cases h : s.window.full = true
  · rw [if_pos h, if_pos h]
    cases s.window.front with
    | none => rfl
    | some front =>
      show some (⟨_, _, _, s.sumXY + (q.2 * q.1 - front.2 * front.1)⟩ : Window.Comoment N (X F)) = some (wcoSwap ⟨_, _, _, _⟩)
      rw [X.mul_comm' q.2, X.mul_comm' front.2]
      rfl
  · rw [if_neg h, if_neg h]
    show some (⟨_, _, _, s.sumXY + q.2 * q.1⟩ : Window.Comoment N (X F)) = some (wcoSwap ⟨_, _, _, _⟩)
    rw [X.mul_comm' q.2]
    rfl

/-- C101 holds for the window covariance: any format, any history, any data (NaN and infinities included). -/
theorem C101_window_partial (ops : List (Op (X F × X F))) :
    (Window.Comoment.run (swapOps ops) : Option (Window.Comoment N (X F))).map (fun s => (s.variance, s.unbiasedVariance))
      = (Window.Comoment.run ops : Option (Window.Comoment N (X F))).map (fun s => (s.variance, s.unbiasedVariance)) := by
  have e : (Window.Comoment.run (swapOps ops) : Option (Window.Comoment N (X F))) = (Window.Comoment.run ops).map wcoSwap := by
    refine runOps_hom (Option.map wcoSwap) Prod.swap ?_ ?_ ?_ ops
    · rfl
    · intro s q
      cases s with
      | none => rfl
      | some s => exact wcoSwap_push s q
    · intro s
      cases s with
      | none => rfl
      | some s => rfl
  rw [e, Option.map_map]
  congr 1
  funext s
  have hs : (wcoSwap s).size = s.size := Neg.ring_map_size _ _
  have hc : (wcoSwap s).cosum = s.cosum := by
    rw [Window.Comoment.cosum, Window.Comoment.cosum, hs]
    show s.sumXY - s.sumY * s.sumX / _ = _
    rw [X.mul_comm']
  simp only [Function.comp, Window.Comoment.variance, Window.Comoment.unbiasedVariance, hs, hc]

/-- The data of the violation: the window covariance is the same both ways, and defined. -/
example : ∃ s t : Window.Comoment 2 (X binary64),
    Window.Comoment.run [.push (X.fin 1, X.fin 0), .push (X.fin (2 ^ 53), X.fin 1)] = some s
    ∧ Window.Comoment.run [.push (X.fin 0, X.fin 1), .push (X.fin 1, X.fin (2 ^ 53))] = some t
    ∧ s.variance = t.variance := by
  have h := C101_window_partial (N := 2) (F := binary64) [.push (X.fin 1, X.fin 0), .push (X.fin (2 ^ 53), X.fin 1)]
  have h' : (Window.Comoment.run [.push (X.fin 0, X.fin 1), .push (X.fin 1, X.fin (2 ^ 53))]
      : Option (Window.Comoment 2 (X binary64))).map (fun s => (s.variance, s.unbiasedVariance))
    = (Window.Comoment.run [.push (X.fin 1, X.fin 0), .push (X.fin (2 ^ 53), X.fin 1)]
      : Option (Window.Comoment 2 (X binary64))).map (fun s => (s.variance, s.unbiasedVariance)) := h
  refine ⟨_, _, rfl, rfl, ?_⟩
  exact (congrArg Prod.fst (Option.some.inj h')).symm

end Verif.Props
