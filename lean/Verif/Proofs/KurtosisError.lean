import Verif.Proofs.SkewnessError
/-
Forward error bound of the sum of the cumulative kurtosis filter.
-/
namespace Verif
open Scalar

variable {F : Fmt} {p : Nat} {emin : Int} {u η : ℝ}

namespace Cumulative
variable {w : Nat}

/-- Data for the error bound of the kurtosis. -/
structure KurtData (F : Fmt) (p : Nat) (emin : Int) (u η : ℝ) (w : Nat) (B K : ℝ) (n : Nat) : Prop where
  shape : ShapeData F p emin u η w B K n
  square : n * n < 2 ^ w
  under0 : η ≤ u
  under4 : n * η ≤ u * B ^ 4
  over0 : 2 * (n : ℝ) ^ 2 ≤ K
  over2 : 60 * (n : ℝ) ^ 2 * B ^ 2 ≤ K
  over3 : 360 * n * B ^ 3 ≤ K
  over4 : 2000 * n * B ^ 4 ≤ K
  small : (647 * n + 40000) * u ≤ 1

theorem KurtData.mono (hE : F.Err u η) {B K : ℝ} {n k : Nat} (h : KurtData F p emin u η w B K n) (hk : k ≤ n) :
    KurtData F p emin u η w B K k := by
  have hk' : (k : ℝ) ≤ n := by exact_mod_cast hk
  have hB := h.shape.B_nonneg
  have h0 : (k : ℝ) ^ 2 ≤ (n : ℝ) ^ 2 := pow_le_pow_left₀ (Nat.cast_nonneg k) hk' 2
  have h1 := mul_le_mul_of_nonneg_right hk' hE.eta_nonneg
  have h2 := mul_le_mul_of_nonneg_right h0 (pow_nonneg hB 2)
  have h3 := mul_le_mul_of_nonneg_right hk' (pow_nonneg hB 3)
  have h4 := mul_le_mul_of_nonneg_right hk' (pow_nonneg hB 4)
  have h5 := mul_le_mul_of_nonneg_right hk' hE.u_nonneg
  have := h.over0; have := h.over2; have := h.over3; have := h.over4; have := h.small
  exact ⟨h.shape.mono hE hk, (Nat.mul_le_mul hk hk).trans_lt h.square, h.under0, h1.trans h.under4,
    by linarith, by linarith, by linarith, by linarith, by linarith⟩

theorem poly_bounds {n : ℝ} (hn : 1 ≤ n) :
    0 ≤ (n + 1) ^ 2 - 3 * (n + 1) + 3 ∧ (n + 1) ^ 2 - 3 * (n + 1) + 3 ≤ n ^ 2 ∧ 1 ≤ n ^ 2 ∧ n ≤ n ^ 2 ∧ n ^ 2 ≤ (n + 1) ^ 2 := by
  refine ⟨?_, ?_, ?_, ?_, ?_⟩ <;> nlinarith

/-- The inner part of the update of the kurtosis sum. -/
theorem kurtosis_inner (hF : F.Binary p emin) (hE : F.Err u η) {B K : ℝ} {n : Nat} (hn : 1 ≤ n) (h : KurtData F p emin u η w B K (n + 1))
    {d S C q a A : ℝ} (q1 : |q - d / (n + 1)| * (n + 1) ≤ (2 * n + 16) * (u * B)) (q2 : |q| * (n + 1) ≤ 4 * B)
    (q3 : |d / (n + 1)| * (n + 1) ≤ 2 * B) (a1 : |a - A| ≤ (9 * n + 89) * (u * B ^ 2)) (a2 : |a| ≤ 17 * B ^ 2) (a3 : |A| ≤ 4 * B ^ 2)
    (hS : |S - C| ≤ n * (6 * n + 65) * (u * B ^ 2)) (hC : |C| ≤ n * B ^ 2) :
    ∃ g : ℝ, ((X.fin a * X.round (((n : ℝ) + 1) ^ 2 - 3 * (n + 1) + 3) + X.fin 6 * X.fin S) * X.fin q : X F) = X.fin g
      ∧ |g - (A * ((n + 1) ^ 2 - 3 * (n + 1) + 3) + 6 * C) * (d / (n + 1))| ≤ n * (56 * n + 2893) * (u * B ^ 3)
      ∧ |g| ≤ 270 * n * B ^ 3
      ∧ |(A * ((n + 1) ^ 2 - 3 * (n + 1) + 3) + 6 * C) * (d / (n + 1))| ≤ 20 * n * B ^ 3 := by
  have hB := h.shape.B_nonneg
  have hu := hE.u_nonneg
  have hη := hE.eta_nonneg
  have hn1 : (1 : ℝ) ≤ n := by exact_mod_cast hn
  have hn0 : (0 : ℝ) ≤ n := by linarith
  have hN : (0 : ℝ) < n + 1 := by positivity
  have hnN : (n : ℝ) ≤ n + 1 := by linarith
  have hB2 : 0 ≤ B ^ 2 := by positivity
  have hB3 : 0 ≤ B ^ 3 := by positivity
  obtain ⟨hc0, hc1, hn2, hnn2, hN2⟩ := poly_bounds hn1
  have huB2 := mul_nonneg hu hB2
  have huB3 := mul_nonneg hu hB3
  have hnB3 := mul_le_mul_of_nonneg_right hn1 hB3
  have hnuB2 := mul_le_mul_of_nonneg_right hn1 huB2
  have hnuB3 := mul_le_mul_of_nonneg_right hn1 huB3
  have hn2B2 : B ^ 2 ≤ n ^ 2 * B ^ 2 := le_mul_of_one_le_left hB2 hn2
  have hnn : (n : ℝ) * B ^ 2 ≤ n ^ 2 * B ^ 2 := mul_le_mul_of_nonneg_right hnn2 hB2
  have hnB2 : B ^ 2 ≤ n * B ^ 2 := le_mul_of_one_le_left hB2 hn1
  have hN2B : (n : ℝ) ^ 2 * B ^ 2 ≤ (n + 1) ^ 2 * B ^ 2 := mul_le_mul_of_nonneg_right hN2 hB2
  have hn2uB2 : u * B ^ 2 ≤ n ^ 2 * (u * B ^ 2) := le_mul_of_one_le_left huB2 hn2
  have hnnu : (n : ℝ) * (u * B ^ 2) ≤ n ^ 2 * (u * B ^ 2) := mul_le_mul_of_nonneg_right hnn2 huB2
  have u2 := h.shape.under2
  have u3 := h.shape.under3
  push_cast at u2 u3
  have hnη := mul_nonneg hn0 hη
  have ηB2 : η ≤ u * B ^ 2 := by linarith only [u2, hnη]
  have ηB3 : η ≤ u * B ^ 3 := by linarith only [u3, hnη]
  have over0 := h.over0
  have over2 := h.over2
  have over3 := h.over3
  push_cast at over0 over2 over3
  have over2' : 60 * (n : ℝ) ^ 2 * B ^ 2 ≤ K := by linarith only [over2, hN2B]
  have over3' : 360 * n * B ^ 3 ≤ K := by linarith only [over3, hB3]
  have small3 := h.shape.small
  push_cast at small3
  set c := ((n : ℝ) + 1) ^ 2 - 3 * (n + 1) + 3
  have hca : |c| ≤ n ^ 2 := by rw [abs_of_nonneg hc0]; exact hc1
  -- the conversion of the count polynomial
  obtain ⟨rk, k1, k2⟩ := hE.round_step hF (U := 1) h.shape.K_rep h.shape.K_fits (show |c - c| ≤ 0 by simp)
    hca (by linarith only [h.under0]) hn2 (by linarith only [over0, hN2, hn2])
  set ch := F.rnd c
  have k1' : |ch - c| ≤ 2 * (u * n ^ 2) := by
    have := mul_le_mul_of_nonneg_left hn2 hu
    linarith only [this, k1]
  -- a c
  have b1 : |a * ch - A * c| ≤ n ^ 2 * (9 * n + 123) * (u * B ^ 2) := by
    refine (abs_mul_sub_le a1 a2 k1' hca).trans (le_of_eq ?_)
    ring
  have hnnB : 0 ≤ (n : ℝ) ^ 2 * B ^ 2 := by positivity
  have b2 : |a * ch| ≤ 22 * n ^ 2 * B ^ 2 := by
    refine (abs_mul_le_of a2 k2).trans ?_
    linarith only [hnnB]
  have b3 : |A * c| ≤ 4 * n ^ 2 * B ^ 2 := by
    refine (abs_mul_le_of a3 hca).trans (le_of_eq ?_)
    ring
  obtain ⟨rb, b4, b5⟩ := hE.round_step hF h.shape.K_rep h.shape.K_fits b1 b2 ηB2 (by linarith only [hn2B2, hnnB]) (by linarith only [over2', hnnB])
  set e := F.rnd (a * ch)
  have b4' : |e - A * c| ≤ n ^ 2 * (9 * n + 146) * (u * B ^ 2) := b4.trans (by linarith only [hn2uB2])
  have b5' : |e| ≤ 28 * n ^ 2 * B ^ 2 := by linarith only [b5, hnnB]
  -- 6 S
  have sS : |S| ≤ 2 * n * B ^ 2 := by
    have e1 : S = (S - C) + C := by ring
    rw [e1]
    refine (abs_add_le _ _).trans ?_
    have i1 : (n * B ^ 2) * ((6 * n + 65) * u) ≤ (n * B ^ 2) * 1 := by
      refine mul_le_mul_of_nonneg_left ?_ (by positivity)
      have : 0 ≤ (57 * n + 1500) * u := by positivity
      linarith only [this, small3, hu]
    linarith only [i1, hS, hC]
  have c1 : |6 * S - 6 * C| ≤ n * (36 * n + 390) * (u * B ^ 2) := by
    rw [← mul_sub, abs_mul, abs_of_pos (by norm_num : (0:ℝ) < 6)]; linarith only [hS]
  have c2 : |6 * S| ≤ 12 * n * B ^ 2 := by
    rw [abs_mul, abs_of_pos (by norm_num : (0:ℝ) < 6)]; linarith only [sS]
  obtain ⟨rc, c3, c4⟩ := hE.round_step hF h.shape.K_rep h.shape.K_fits c1 c2 ηB2 (by linarith only [hnB2, hB2]) (by linarith only [over2', hnnB, hnn])
  set b := F.rnd (6 * S)
  have c3' : |b - 6 * C| ≤ n ^ 2 * 439 * (u * B ^ 2) := c3.trans (by linarith only [hnnu, hn2uB2])
  have c4' : |b| ≤ 15 * n ^ 2 * B ^ 2 := by linarith only [c4, hnn]
  -- sum
  have f1 : |(e + b) - (A * c + 6 * C)| ≤ n ^ 2 * (9 * n + 585) * (u * B ^ 2) := by
    have e1 : (e + b) - (A * c + 6 * C) = (e - A * c) + (b - 6 * C) := by ring
    rw [e1]
    refine (abs_add_le _ _).trans ?_
    linarith only [b4', c3']
  have f2 : |e + b| ≤ 43 * n ^ 2 * B ^ 2 := (abs_add_le _ _).trans (by linarith only [b5', c4'])
  have f3 : |A * c + 6 * C| ≤ 10 * n ^ 2 * B ^ 2 := by
    refine (abs_add_le _ _).trans ?_
    rw [abs_mul 6 C, abs_of_pos (by norm_num : (0:ℝ) < 6)]; linarith only [b3, hC, hnn]
  obtain ⟨rf, f4, f5⟩ := hE.round_step hF h.shape.K_rep h.shape.K_fits f1 f2 ηB2 (by linarith only [hn2B2, hnnB]) (by linarith only [over2', hnnB])
  set f := F.rnd (e + b)
  set f0 := A * c + 6 * C
  have f4' : |f - f0| ≤ n ^ 2 * (9 * n + 629) * (u * B ^ 2) := f4.trans (by linarith only [hn2uB2])
  have f5' : |f| ≤ 54 * n ^ 2 * B ^ 2 := by linarith only [f5, hnnB]
  -- times d̂ / N
  have g1 : |f * q - f0 * (d / (n + 1))| ≤ n * (56 * n + 2676) * (u * B ^ 3) := by
    have e1 : f * q - f0 * (d / (n + 1)) = (f - f0) * q + f0 * (q - d / (n + 1)) := by ring
    rw [e1]
    refine (abs_add_le _ _).trans ?_
    refine le_of_mul_le_mul_right ?_ hN
    rw [add_mul, abs_mul, abs_mul, mul_assoc, mul_assoc]
    have i1 := mul_le_mul f4' q2 (by positivity) (by positivity)
    have i2 := mul_le_mul f3 q1 (by positivity) (by positivity)
    have i3 : n ^ 2 * (9 * n + 629) * (u * B ^ 2) * (4 * B) + 10 * n ^ 2 * B ^ 2 * ((2 * n + 16) * (u * B))
        = n * (56 * n + 2676) * (u * B ^ 3) * n := by ring
    have i4 := mul_le_mul_of_nonneg_left hnN (show 0 ≤ n * (56 * n + 2676) * (u * B ^ 3) by positivity)
    linarith only [i1, i2, i3, i4]
  have g2 : |f * q| ≤ 216 * n * B ^ 3 := by
    refine le_of_mul_le_mul_right ?_ hN
    rw [abs_mul, mul_assoc]
    have i1 := mul_le_mul f5' q2 (by positivity) (by positivity)
    have i3 : 54 * n ^ 2 * B ^ 2 * (4 * B) = 216 * n * B ^ 3 * n := by ring
    have i4 := mul_le_mul_of_nonneg_left hnN (show 0 ≤ 216 * n * B ^ 3 by positivity)
    linarith only [i1, i3, i4]
  have g5 : |f0 * (d / (n + 1))| ≤ 20 * n * B ^ 3 := by
    refine le_of_mul_le_mul_right ?_ hN
    rw [abs_mul, mul_assoc]
    have i1 := mul_le_mul f3 q3 (by positivity) (by positivity)
    have i3 : 10 * n ^ 2 * B ^ 2 * (2 * B) = 20 * n * B ^ 3 * n := by ring
    have i4 := mul_le_mul_of_nonneg_left hnN (show 0 ≤ 20 * n * B ^ 3 by positivity)
    linarith only [i1, i3, i4]
  obtain ⟨rg, g3, g4⟩ := hE.round_step hF h.shape.K_rep h.shape.K_fits g1 g2 ηB3 (by linarith only [hnB3, hB3]) (by linarith only [over3', hnB3, hB3])
  refine ⟨F.rnd (f * q), ?_, g3.trans (by linarith only [hnuB3]), by linarith only [g4], g5⟩
  rw [rk, X.mul_fin, rb, X.mul_fin, rc, X.add_fin, rf, X.mul_fin, rg]

/-- One update of the kurtosis sum; at least one value has been pushed before. -/
theorem kurtosis_step (hF : F.Binary p emin) (hE : F.Err u η) {B K : ℝ} {n : Nat} (hn : 1 ≤ n) (h : KurtData F p emin u η w B K (n + 1))
    {dh d S C T D U V : ℝ} (h1 : |dh - d| ≤ (2 * n + 12) * (u * B)) (h2 : |dh| ≤ 5 / 2 * B) (h3 : |d| ≤ 2 * B)
    (hS : |S - C| ≤ n * (6 * n + 65) * (u * B ^ 2)) (hC : |C| ≤ n * B ^ 2)
    (hT : |T - D| ≤ n * (63 * n + 1600) * (u * B ^ 3)) (hD : |D| ≤ 2 * n * B ^ 3)
    (hU : |U - V| ≤ n * (647 * n + 40000) * (u * B ^ 4))
    (hV : |V + ((d * (d / (n + 1)) * n * ((n + 1) ^ 2 - 3 * (n + 1) + 3) + 6 * C) * (d / (n + 1)) - 4 * D) * (d / (n + 1))|
      ≤ 4 * (n + 1) * B ^ 4) :
    ∃ U' : ℝ, (X.fin U + ((X.fin dh * (X.fin dh / X.fin ((n : ℝ) + 1)) * X.fin (n : ℝ) * X.round (((n : ℝ) + 1) ^ 2 - 3 * (n + 1) + 3)
          + X.fin 6 * X.fin S) * (X.fin dh / X.fin ((n : ℝ) + 1)) - X.fin 4 * X.fin T) * (X.fin dh / X.fin ((n : ℝ) + 1)) : X F) = X.fin U'
      ∧ |U' - (V + ((d * (d / (n + 1)) * n * ((n + 1) ^ 2 - 3 * (n + 1) + 3) + 6 * C) * (d / (n + 1)) - 4 * D) * (d / (n + 1)))|
        ≤ (n + 1) * (647 * (n + 1) + 40000) * (u * B ^ 4) := by
  obtain ⟨q, a, eq, ea, q1, q2, q3, a1, a2, a3, -⟩ := shape_prefix hF hE h.shape h1 h2 h3
  obtain ⟨g, eg, g3, g4, g5⟩ := kurtosis_inner hF hE hn h q1 q2 q3 a1 a2 a3 hS hC
  rw [eq, ea, eg]
  set g0 := (d * (d / (n + 1)) * n * ((n + 1) ^ 2 - 3 * (n + 1) + 3) + 6 * C) * (d / (n + 1))
  clear eg ea a1 a2 a3 hS hC h1 h2 h3 eq
  have hB := h.shape.B_nonneg
  have hu := hE.u_nonneg
  have hη := hE.eta_nonneg
  have hn1 : (1 : ℝ) ≤ n := by exact_mod_cast hn
  have hn0 : (0 : ℝ) ≤ n := by linarith
  have hN : (0 : ℝ) < n + 1 := by positivity
  have hnN : (n : ℝ) ≤ n + 1 := by linarith
  have hB3 : 0 ≤ B ^ 3 := by positivity
  have hB4 : 0 ≤ B ^ 4 := by positivity
  have huB3 := mul_nonneg hu hB3
  have huB4 := mul_nonneg hu hB4
  have hnB3 := mul_le_mul_of_nonneg_right hn1 hB3
  have hnB4 := mul_le_mul_of_nonneg_right hn1 hB4
  have hnuB3 := mul_le_mul_of_nonneg_right hn1 huB3
  have hnuB4 := mul_le_mul_of_nonneg_right hn1 huB4
  have u3 := h.shape.under3
  have u4 := h.under4
  have over3 := h.over3
  have over4 := h.over4
  have small3 := h.shape.small
  have small := h.small
  push_cast at u3 u4 over3 over4 small3 small
  have hnη := mul_nonneg hn0 hη
  have ηB3 : η ≤ u * B ^ 3 := by linarith only [u3, hnη]
  have ηB4 : η ≤ u * B ^ 4 := by linarith only [u4, hnη]
  have over3' : 360 * n * B ^ 3 ≤ K := by linarith only [over3, hB3]
  have hnB3' : 0 ≤ n * B ^ 3 := by positivity
  have hnB4' : 0 ≤ n * B ^ 4 := by positivity
  -- 4 T
  have sT : |T| ≤ 3 * n * B ^ 3 := by
    have e1 : T = (T - D) + D := by ring
    rw [e1]
    refine (abs_add_le _ _).trans ?_
    have i1 : (n * B ^ 3) * ((63 * n + 1600) * u) ≤ (n * B ^ 3) * 1 := by
      refine mul_le_mul_of_nonneg_left ?_ (by positivity)
      linarith only [small3, hu]
    linarith only [i1, hT, hD]
  have s1 : |4 * T - 4 * D| ≤ n * (252 * n + 6400) * (u * B ^ 3) := by
    rw [← mul_sub, abs_mul, abs_of_pos (by norm_num : (0:ℝ) < 4)]; linarith only [hT]
  have s2 : |4 * T| ≤ 12 * n * B ^ 3 := by
    rw [abs_mul, abs_of_pos (by norm_num : (0:ℝ) < 4)]; linarith only [sT]
  obtain ⟨rs, s3, s4⟩ := hE.round_step hF h.shape.K_rep h.shape.K_fits s1 s2 ηB3 (by linarith only [hnB3, hB3]) (by linarith only [over3', hnB3'])
  set s := F.rnd (4 * T)
  -- difference
  have l1 : |(g - s) - (g0 - 4 * D)| ≤ n * (308 * n + 9306) * (u * B ^ 3) := by
    have e1 : (g - s) - (g0 - 4 * D) = (g - g0) - (s - 4 * D) := by ring
    rw [e1]
    refine (abs_sub _ _).trans ?_
    linarith only [g3, s3, hnuB3]
  have l2 : |g - s| ≤ 285 * n * B ^ 3 := (abs_sub _ _).trans (by linarith only [g4, s4])
  have l3 : |g0 - 4 * D| ≤ 28 * n * B ^ 3 := by
    refine (abs_sub _ _).trans ?_
    rw [abs_mul 4 D, abs_of_pos (by norm_num : (0:ℝ) < 4)]; linarith only [g5, hD]
  obtain ⟨rl, l4, l5⟩ := hE.round_step hF h.shape.K_rep h.shape.K_fits l1 l2 ηB3 (by linarith only [hnB3, hB3]) (by linarith only [over3', hnB3'])
  set l := F.rnd (g - s)
  set l0 := g0 - 4 * D
  have l4' : |l - l0| ≤ n * (308 * n + 9592) * (u * B ^ 3) := l4.trans (by linarith only [hnuB3])
  have l5' : |l| ≤ 357 * n * B ^ 3 := by linarith only [l5, hnB3']
  -- times d̂ / N
  have m1 : |l * q - l0 * (d / (n + 1))| ≤ (1288 * n + 38816) * (u * B ^ 4) := by
    have e1 : l * q - l0 * (d / (n + 1)) = (l - l0) * q + l0 * (q - d / (n + 1)) := by ring
    rw [e1]
    refine (abs_add_le _ _).trans ?_
    refine le_of_mul_le_mul_right ?_ hN
    rw [add_mul, abs_mul, abs_mul, mul_assoc, mul_assoc]
    have i1 := mul_le_mul l4' q2 (by positivity) (by positivity)
    have i2 := mul_le_mul l3 q1 (by positivity) (by positivity)
    have i3 : n * (308 * n + 9592) * (u * B ^ 3) * (4 * B) + 28 * n * B ^ 3 * ((2 * n + 16) * (u * B))
        = (1288 * n + 38816) * (u * B ^ 4) * n := by ring
    have i4 := mul_le_mul_of_nonneg_left hnN (show 0 ≤ (1288 * n + 38816) * (u * B ^ 4) by positivity)
    linarith only [i1, i2, i3, i4]
  have m2 : |l * q| ≤ 1428 * B ^ 4 := by
    refine le_of_mul_le_mul_right ?_ hN
    rw [abs_mul, mul_assoc]
    have i1 := mul_le_mul l5' q2 (by positivity) (by positivity)
    have i3 : 357 * n * B ^ 3 * (4 * B) = 1428 * B ^ 4 * n := by ring
    have i4 := mul_le_mul_of_nonneg_left hnN (show 0 ≤ 1428 * B ^ 4 by positivity)
    linarith only [i1, i3, i4]
  obtain ⟨rm, m3, m4⟩ := hE.round_step hF h.shape.K_rep h.shape.K_fits m1 m2 ηB4 (by linarith only [hB4]) (by linarith only [over4, hB4, hnB4'])
  set m := F.rnd (l * q)
  -- sum
  set V' := V + l0 * (d / (n + 1)) with hV'
  have t1 : |U + m - V'| ≤ (n * (647 * n + 40000) + (1288 * n + 40245)) * (u * B ^ 4) := by
    have e1 : U + m - V' = (U - V) + (m - l0 * (d / (n + 1))) := by rw [hV']; ring
    rw [e1]
    refine (abs_add_le _ _).trans ?_
    linarith only [hU, m3]
  have t2 : |U + m| ≤ 5 * (n + 1) * B ^ 4 := by
    have e1 : U + m = (U + m - V') + V' := by ring
    rw [e1]
    refine (abs_add_le _ _).trans ?_
    have i1 : (n + 1) * B ^ 4 * ((647 * (n + 1) + 40000) * u) ≤ (n + 1) * B ^ 4 * 1 :=
      mul_le_mul_of_nonneg_left small (by positivity)
    have i2 : 0 ≤ n * (u * B ^ 4) := by positivity
    linarith only [i1, i2, t1, hV, huB4]
  obtain ⟨rt, t3, -⟩ := hE.round_step hF h.shape.K_rep h.shape.K_fits t1 t2 ηB4 (by linarith only [hB4, hnB4']) (by linarith only [over4, hB4, hnB4'])
  refine ⟨F.rnd (U + m), ?_, t3.trans (by linarith only [huB4, hnuB4])⟩
  rw [X.mul_fin, rs, X.sub_fin, rl, X.mul_fin, rm, X.add_fin, rt]

theorem size_poly_toNat (n : Nat) (h : n * n < 2 ^ w) (h1 : 1 ≤ n) :
    (BitVec.ofNat w n * (BitVec.ofNat w n - 3) + 3).toNat = n * n + 3 - 3 * n := by
  have key : BitVec.ofNat w n * (BitVec.ofNat w n - 3) + 3 = BitVec.ofNat w (n * n + 3 - 3 * n) := by
    have h3 : (3 : BitVec w) = BitVec.ofNat w 3 := rfl
    rw [← ofNat_sub (three_mul_le n), BitVec.ofNat_add, BitVec.ofNat_mul, BitVec.ofNat_mul, h3]
    ring
  rw [key, toNat_ofNat_lt (by omega)]

/-- Error of the sum of fourth powers. -/
theorem Kurtosis.rounded_err (hF : F.Binary p emin) (hE : F.Err u η) {B K : ℝ} (xs : List ℝ) (hd : F.Data p emin xs)
    (hB : ∀ x ∈ xs, |x| ≤ B) (h : KurtData F p emin u η w B K xs.length) :
    ∃ U : ℝ, ((xs.map X.fin).foldl Kurtosis.push (Kurtosis.init : Kurtosis w (X F))).sumKurtosis = X.fin U
      ∧ |U - Spec.central 4 xs| ≤ xs.length * (647 * xs.length + 40000) * (u * B ^ 4) := by
  induction xs using List.reverseRecOn with
  | nil => exact ⟨0, hF.ofNat_zero, by simp [Spec.central]⟩
  | append_singleton xs x ih =>
    rw [List.length_append, List.length_singleton] at h ⊢
    have hB' : ∀ y ∈ xs, |y| ≤ B := fun y hy => hB y (List.mem_append_left _ hy)
    have hB0 := h.shape.B_nonneg
    obtain ⟨U, hU, hUe⟩ := ih hd.init hB' (h.mono hE (by omega))
    obtain ⟨T, hT, hTe⟩ := Skewness.rounded_err (w := w) hF hE xs hd.init hB' (h.shape.mono hE (by omega))
    obtain ⟨dh, S, hdh, hS, hc, d1, d2, d3, S1, S2, S0⟩ := shape_before hF hE xs x hd hB h.shape
    have hsn := Spec.central_four_snoc xs x
    have hbound : |Spec.central 4 (xs ++ [x])| ≤ 4 * (xs.length + 1) * B ^ 4 := by
      rw [abs_of_nonneg (show 0 ≤ Spec.central 4 (xs ++ [x]) from Spec.about_even_nonneg 4 (by decide) _ _)]
      refine (Spec.central_four_le hB0 _ hB).trans ?_
      have i1 := mul_le_mul_of_nonneg_left (Spec.central_two_le _ hB) (show 0 ≤ 4 * B ^ 2 by positivity)
      rw [List.length_append, List.length_singleton] at i1
      push_cast at i1
      linarith
    have hbound3 : |Spec.central 3 xs| ≤ 2 * xs.length * B ^ 3 := by
      refine (Spec.abs_central_three_le hB0 _ hB').trans ?_
      have i1 := mul_le_mul_of_nonneg_left (Spec.central_two_le _ hB') (show 0 ≤ 2 * B by linarith)
      linarith
    have hs := h.shape.size
    have hdg := h.shape.digits
    have h6 : (ofNat 6 : X F) = X.fin 6 := by
      have := ofNat_small hF (k := 6) (by simp) (h.shape.fits hF (by omega))
      exact_mod_cast this
    have h4 : (ofNat 4 : X F) = X.fin 4 := by
      have := ofNat_small hF (k := 4) (by simp) (h.shape.fits hF (by omega))
      exact_mod_cast this
    have e1 : (ofSize (BitVec.ofNat w xs.length + 1) : X F) = X.fin ((xs.length : ℝ) + 1) := by
      rw [ofNat_add_one, ofSize, toNat_ofNat_lt hs, hF.ofNat_fin hdg (h.shape.fits hF (by omega))]
      push_cast; rfl
    have e2 : (ofSize (BitVec.ofNat w xs.length + 1 - 1) : X F) = X.fin (xs.length : ℝ) := by
      rw [BitVec.add_sub_cancel, ofSize, toNat_ofNat_lt (by omega), hF.ofNat_fin (by omega) (h.shape.fits hF (by omega))]
    have e3 : (ofSize ((BitVec.ofNat w xs.length + 1) * (BitVec.ofNat w xs.length + 1 - 3) + 3) : X F)
        = X.round (((xs.length : ℝ) + 1) ^ 2 - 3 * (xs.length + 1) + 3) := by
      rw [ofNat_add_one, ofSize, size_poly_toNat _ h.square (by omega), X.ofNat_eq, Nat.cast_sub (three_mul_le _)]
      congr 1
      push_cast; ring
    have hpush : (((xs.map X.fin).foldl Kurtosis.push (Kurtosis.init : Kurtosis w (X F))).push (X.fin x)).sumKurtosis =
        X.fin U + ((X.fin dh * (X.fin dh / X.fin ((xs.length : ℝ) + 1)) * X.fin (xs.length : ℝ)
            * X.round (((xs.length : ℝ) + 1) ^ 2 - 3 * (xs.length + 1) + 3) + X.fin 6 * X.fin S) * (X.fin dh / X.fin ((xs.length : ℝ) + 1))
          - X.fin 4 * X.fin T) * (X.fin dh / X.fin ((xs.length : ℝ) + 1)) := by
      have hsup := Kurtosis.fold_super (w := w) (xs.map X.fin : List (X F))
      have hsup' := Skewness.fold_super (w := w) (xs.map X.fin : List (X F))
      have hsup'' := Variance.fold_super' (w := w) (xs.map X.fin : List (X F))
      set st := (xs.map X.fin).foldl Kurtosis.push (Kurtosis.init : Kurtosis w (X F))
      show st.sumKurtosis + (((X.fin x - st.super.super.super.mean)
            * ((X.fin x - st.super.super.super.mean) / ofSize (st.super.super.super.count + 1))
            * ofSize (st.super.super.super.count + 1 - 1)
            * ofSize ((st.super.super.super.count + 1) * (st.super.super.super.count + 1 - 3) + 3)
            + ofNat 6 * st.super.super.sumVariance)
          * ((X.fin x - st.super.super.super.mean) / ofSize (st.super.super.super.count + 1)) - ofNat 4 * st.super.sumSkewness)
        * ((X.fin x - st.super.super.super.mean) / ofSize (st.super.super.super.count + 1)) = _
      rw [hU, hsup, hT, hsup', hS, hsup'', hdh, hc, e1, e2, e3, h4, h6]
    rw [List.map_append, List.map_singleton, List.foldl_append, List.foldl_cons, List.foldl_nil, hpush]
    rcases Nat.eq_zero_or_pos xs.length with h0 | h0
    · -- the first value
      have hx : xs = [] := List.length_eq_zero_iff.1 h0
      have hS0 := S0 hx
      subst hx
      have hU0 : U = 0 := by
        have : (X.fin U : X F) = X.fin 0 := by rw [← hU, ← hF.ofNat_zero]; rfl
        injection this
      have hT0 : T = 0 := by
        have : (X.fin T : X F) = X.fin 0 := by rw [← hT, ← hF.ofNat_zero]; rfl
        injection this
      obtain ⟨q, a, eq, ea, -, -, -, -, -, -, ha⟩ := shape_prefix hF hE h.shape d1 d2 d3
      rw [ha rfl] at ea
      have z : (X.round 0 : X F) = X.fin 0 := hF.round_exact (isRep_zero _ _) hF.fits_zero
      have ec : (X.round ((((([] : List ℝ).length : ℝ)) + 1) ^ 2 - 3 * ((([] : List ℝ).length : ℝ) + 1) + 3) : X F) = X.fin 1 := by
        have := hF.ofNat_fin (n := 1) (Nat.one_le_two_pow) (h.shape.fits hF (k := 1) (by omega))
        rw [X.ofNat_eq] at this
        rw [List.length_nil]
        norm_num at this ⊢
        exact this
      rw [eq, ea, ec, hS0, hT0, hU0, X.mul_fin, zero_mul, z, X.mul_fin, mul_zero, z, X.add_fin, add_zero, z, X.mul_fin, zero_mul, z,
        X.mul_fin, mul_zero, z, X.sub_fin, sub_zero, z, X.mul_fin, zero_mul, z, X.add_fin, add_zero, z]
      refine ⟨0, rfl, ?_⟩
      rw [hsn]
      simp [Spec.central]
      have := hE.u_nonneg
      positivity
    · push_cast
      rw [hsn] at hbound ⊢
      exact kurtosis_step hF hE h0 h d1 d2 d3 S1 S2 hTe hbound3 hUe hbound

end Cumulative
end Verif
