import Verif.Model.Excess
import Verif.Proofs.Mixed
import Verif.Proofs.Contracted
import Verif.Proofs.ErrorBound
/-
The cumulative mean and variance with excess precision.
-/
namespace Verif
open Scalar

variable {F W : Fmt} {p q : Nat} {emin gmin : Int} {u η u' η' : ℝ}

/-- The rounding of an intermediate result. -/
def Fmt.rnd2 (F W : Fmt) (b : Bool) (r : ℝ) : ℝ := if b then F.rnd (W.rnd r) else W.rnd r

/-- A format and one with more digits and range in which it is evaluated. -/
structure Fmt.Eval (F W : Fmt) (p : Nat) (emin : Int) (q : Nat) (gmin : Int) : Prop where
  narrow : F.Binary p emin
  wide : W.Binary q gmin
  wider : W.Wider F q gmin p emin

namespace Fmt.Eval

theorem rnd2_mono (h : F.Eval W p emin q gmin) (b : Bool) : Monotone (F.rnd2 W b) := by
  cases b
  · exact h.wide.mono
  · exact h.narrow.mono.comp h.wide.mono

theorem rnd2_exact (h : F.Eval W p emin q gmin) (b : Bool) {r : ℝ} (hr : IsRep p emin r) : F.rnd2 W b r = r := by
  cases b
  · exact h.wide.exact _ (h.wider.rep hr)
  · show F.rnd (W.rnd r) = r
    rw [h.wide.exact _ (h.wider.rep hr), h.narrow.exact _ hr]

theorem rnd2_le (h : F.Eval W p emin q gmin) (b : Bool) {r c : ℝ} (hc : IsRep p emin c) (hr : r ≤ c) : F.rnd2 W b r ≤ c := by
  have := h.rnd2_mono b hr
  rwa [h.rnd2_exact b hc] at this

theorem le_rnd2 (h : F.Eval W p emin q gmin) (b : Bool) {r c : ℝ} (hc : IsRep p emin c) (hr : c ≤ r) : c ≤ F.rnd2 W b r := by
  have := h.rnd2_mono b hr
  rwa [h.rnd2_exact b hc] at this

theorem conv_fin (h : F.Eval W p emin q gmin) {r : ℝ} (hr : IsRep p emin r) (hf : F.fits r) :
    X.conv W (X.fin r : X F) = X.fin r := h.wider.conv_fin h.wide hr hf

/-- An intermediate result between two numbers of the value type. -/
theorem spill (h : F.Eval W p emin q gmin) (b : Bool) {r a c : ℝ} (ha : IsRep p emin a) (haf : F.fits a)
    (hc : IsRep p emin c) (hcf : F.fits c) (h1 : a ≤ r) (h2 : r ≤ c) :
    X.spill F b (X.round r : X W) = X.fin (F.rnd2 W b r) := by
  have e : (X.round r : X W) = X.fin (W.rnd r) := by
    unfold X.round
    rw [if_pos (h.wide.fits_between (h.wider.fits _ haf) (h.wider.fits _ hcf) (h.wide.le_rnd (h.wider.rep ha) h1)
      (h.wide.rnd_le (h.wider.rep hc) h2))]
  rw [e]
  cases b
  · rfl
  · show X.conv W (X.round (W.rnd r) : X F) = X.fin (F.rnd (W.rnd r))
    have hf : F.fits (F.rnd (W.rnd r)) :=
      h.narrow.fits_between haf hcf (h.le_rnd2 true ha h1) (h.rnd2_le true hc h2)
    unfold X.round
    rw [if_pos hf]
    exact h.conv_fin (h.narrow.rep _) hf

/-- A stored result between two numbers of the value type. -/
theorem store (h : F.Eval W p emin q gmin) (b : Bool) {r a c : ℝ} (ha : IsRep p emin a) (haf : F.fits a)
    (hc : IsRep p emin c) (hcf : F.fits c) (h1 : a ≤ r) (h2 : r ≤ c) :
    X.conv F (X.spill F b (X.round r : X W)) = X.fin (F.rnd (W.rnd r)) ∧ F.fits (F.rnd (W.rnd r)) := by
  have hf : F.fits (F.rnd (W.rnd r)) :=
    h.narrow.fits_between haf hcf (h.le_rnd2 true ha h1) (h.rnd2_le true hc h2)
  rw [h.spill b ha haf hc hcf h1 h2]
  refine ⟨?_, hf⟩
  cases b
  · show X.round (W.rnd r) = _
    unfold X.round
    rw [if_pos hf]
  · show X.round (F.rnd (W.rnd r)) = _
    exact h.narrow.round_exact (h.narrow.rep _) hf

/-- The count as divisor. -/
theorem count_ge (h : F.Eval W p emin q gmin) (b : Bool) {w : Nat} (n : SizeT w) {k : Nat} (hk : k = 1 ∨ k = 2) (hn : k ≤ n.toNat) :
    Excess.countIn F W b n = X.pinf ∨ ∃ d : ℝ, k ≤ d ∧ Excess.countIn F W b n = X.fin d := by
  have key : ∀ {G : Fmt} {pg : Nat} {eg : Int}, G.Binary pg eg →
      (ofSize n : X G) = X.pinf ∨ ∃ d : ℝ, (k ≤ d ∧ IsRep pg eg d ∧ G.fits d) ∧ (ofSize n : X G) = X.fin d := by
    intro G pg eg hG
    rw [ofSize, X.ofNat_eq]
    have hd : (k : ℝ) ≤ G.rnd (n.toNat : ℝ) := by
      refine hG.le_rnd ?_ (by exact_mod_cast hn)
      rcases hk with rfl | rfl
      · simpa using hG.isRep_one
      · simpa using hG.isRep_two
    unfold X.round
    by_cases hf : G.fits (G.rnd (n.toNat : ℝ))
    · rw [if_pos hf]; exact Or.inr ⟨_, ⟨hd, hG.rep _, hf⟩, rfl⟩
    · rw [if_neg hf, if_pos]
      · exact Or.inl rfl
      · have : 1 ≤ n.toNat := by omega
        exact_mod_cast this
  unfold Excess.countIn
  cases b
  · rcases key h.wide with e | ⟨d, hd, e⟩
    · exact Or.inl e
    · exact Or.inr ⟨d, hd.1, e⟩
  · rcases key h.narrow with e | ⟨d, hd, e⟩
    · rw [if_pos rfl, e]; exact Or.inl rfl
    · rw [if_pos rfl, e, h.conv_fin hd.2.1 hd.2.2]; exact Or.inr ⟨d, hd.1, rfl⟩

/-- Dividing a rounded difference by 2 or more does not exceed the exact difference. -/
theorem quot_le (h : F.Eval W p emin q gmin) (b b' : Bool) {m x n : ℝ} (hm : IsRep p emin m) (hx : IsRep p emin x) (hmx : m ≤ x)
    (hn : 2 ≤ n) : F.rnd2 W b' (F.rnd2 W b (x - m) / n) ≤ x - m := by
  obtain ⟨k, hk⟩ : ∃ k : Int, x - m = k * 2 ^ emin := by
    obtain ⟨k, hk⟩ := Fmt.Binary.exists_mul_of_isRep hm
    obtain ⟨l, hl⟩ := Fmt.Binary.exists_mul_of_isRep hx
    exact ⟨l - k, by rw [hk, hl]; push_cast; ring⟩
  have hd0 : 0 ≤ x - m := sub_nonneg.2 hmx
  have hpos : (0 : ℝ) < 2 ^ emin := by positivity
  have hk0 : 0 ≤ k := by
    by_contra hc
    have : (k : ℝ) < 0 := by exact_mod_cast not_le.1 hc
    have := mul_neg_of_neg_of_pos this hpos
    linarith
  rcases lt_or_ge k (2 ^ p) with hlt | hge
  · have hr : IsRep p emin (x - m) := ⟨k, emin, hk, by rw [abs_of_nonneg hk0]; exact hlt, le_refl _⟩
    rw [h.rnd2_exact b hr]
    exact h.rnd2_le b' hr (div_le_self hd0 (by linarith))
  · have hy : (2 : ℝ) ^ emin ≤ x - m := by
      rw [hk]
      have : (1 : ℝ) ≤ k := by
        have : (1 : Int) ≤ 2 ^ p := one_le_pow₀ (by norm_num)
        exact_mod_cast this.trans hge
      nlinarith
    have hy0 : 0 < x - m := hpos.trans_le hy
    have h1 := Int.lt_zpow_succ_log_self (b := 2) (by norm_num) (x - m)
    have h2 := Int.zpow_log_le_self (b := 2) (by norm_num) hy0
    push_cast at h1 h2
    have hl : emin ≤ Int.log 2 (x - m) := by
      rw [← Int.zpow_le_iff_le_log (by norm_num) hy0]; exact_mod_cast hy
    have hp1 : 1 ≤ p := by have := h.narrow.digits; omega
    have g1 := h.rnd2_le b (isRep_zpow hp1 (show emin ≤ Int.log 2 (x - m) + 1 by omega)) h1.le
    refine (h.rnd2_le b' (isRep_zpow hp1 hl) ?_).trans h2
    rw [zpow_add₀ (by norm_num), zpow_one] at g1
    rw [div_le_iff₀ (by linarith)]
    nlinarith [show (0 : ℝ) < 2 ^ Int.log 2 (x - m) by positivity]

theorem rnd2_nonneg (h : F.Eval W p emin q gmin) (b : Bool) {r : ℝ} (hr : 0 ≤ r) : 0 ≤ F.rnd2 W b r :=
  h.le_rnd2 b (isRep_zero _ _) hr
theorem rnd2_nonpos (h : F.Eval W p emin q gmin) (b : Bool) {r : ℝ} (hr : r ≤ 0) : F.rnd2 W b r ≤ 0 :=
  h.rnd2_le b (isRep_zero _ _) hr

theorem mirror (h : F.Eval W p emin q gmin) : F.mirror.Eval W.mirror p emin q gmin where
  narrow := h.narrow.mirror
  wide := h.wide.mirror
  wider := ⟨h.wider.digits, h.wider.emin_le, fun _ hr => h.wider.fits _ hr⟩

theorem rnd2_mirror (b : Bool) (r : ℝ) : F.mirror.rnd2 W.mirror b r = -F.rnd2 W b (-r) := by
  cases b <;> simp [Fmt.rnd2, Fmt.mirror]

theorem le_quot (h : F.Eval W p emin q gmin) (b b' : Bool) {m x n : ℝ} (hm : IsRep p emin m) (hx : IsRep p emin x) (hmx : x ≤ m)
    (hn : 2 ≤ n) : x - m ≤ F.rnd2 W b' (F.rnd2 W b (x - m) / n) := by
  have := h.mirror.quot_le b b' hm.neg hx.neg (neg_le_neg hmx) hn
  rw [rnd2_mirror, rnd2_mirror] at this
  have e1 : -(-x - -m) = x - m := by ring
  rw [e1] at this
  have e2 : -(-F.rnd2 W b (x - m) / n) = F.rnd2 W b (x - m) / n := by ring
  rw [e2] at this
  linarith

/-- Error of an intermediate result. -/
theorem rnd2_err (hF : F.Err u η) (hW : W.Err u' η') (b : Bool) (r : ℝ) :
    |F.rnd2 W b r - r| ≤ (u + u' + u * u') * |r| + (η + (1 + u) * η') := by
  have h1 := hW.err r
  have hu := hF.u_nonneg
  have hu' := hW.u_nonneg
  have he := hF.eta_nonneg
  have he' := hW.eta_nonneg
  cases b
  · show |W.rnd r - r| ≤ _
    refine h1.trans ?_
    have := mul_nonneg hu (abs_nonneg r)
    have := mul_nonneg (mul_nonneg hu hu') (abs_nonneg r)
    have := mul_nonneg hu he'
    linarith
  · show |F.rnd (W.rnd r) - r| ≤ _
    have h2 := hF.err (W.rnd r)
    have h3 : |W.rnd r| ≤ (1 + u') * |r| + η' := by
      have := abs_add_le (W.rnd r - r) r
      rw [sub_add_cancel] at this; linarith
    have h4 := abs_add_le (F.rnd (W.rnd r) - W.rnd r) (W.rnd r - r)
    rw [sub_add_sub_cancel] at h4
    have := mul_le_mul_of_nonneg_left h3 hu
    linarith

end Fmt.Eval

/-- The error of `m + t (x - y)` where every operation has its own rounding. -/
theorem step3_le {R R' R'' : ℝ → ℝ} (hu : 0 ≤ u) (hu8 : u ≤ 1 / 8) (he : 0 ≤ η) (e1 : ∀ r, |R r - r| ≤ u * |r| + η)
    (e2 : ∀ r, |R' r - r| ≤ u * |r| + η) (e3 : ∀ r, |R'' r - r| ≤ u * |r| + η) {m x y t B : ℝ} (ht : 0 ≤ t)
    (hd : |x - y| ≤ 2 * B) (hm : |m + t * (x - y)| ≤ B) :
    |R'' (m + R' (t * R (x - y))) - (m + t * (x - y))| ≤ t * (5 * (u * B) + 2 * η) + (u * B + 3 * η) := by
  -- every rounding error is that of some format
  have h0 : |R'' (m + R' (t * R (x - y))) - (m + t * (x - y))|
      ≤ (1 + u) * (t * (u * ((1 + u) * |x - y| + η) + (u * |x - y| + η)) + η) + u * |m + t * (x - y)| + η := by
    have h1 := e1 (x - y)
    set d := R (x - y)
    have hd : |d| ≤ (1 + u) * |x - y| + η := by
      have : |d| ≤ |d - (x - y)| + |x - y| := by
        have := abs_add_le (d - (x - y)) (x - y); rwa [sub_add_cancel] at this
      linarith
    have h2 := e2 (t * d)
    set q := R' (t * d)
    have hq : |q - t * (x - y)| ≤ t * (u * ((1 + u) * |x - y| + η) + (u * |x - y| + η)) + η := by
      have e : q - t * (x - y) = (q - t * d) + t * (d - (x - y)) := by ring
      rw [e]
      refine (abs_add_le _ _).trans ?_
      rw [abs_mul t, abs_of_nonneg ht]
      rw [abs_mul, abs_of_nonneg ht] at h2
      have := mul_le_mul_of_nonneg_left h1 ht
      have := mul_le_mul_of_nonneg_left hd (mul_nonneg hu ht)
      nlinarith
    have h3 := e3 (m + q)
    have hs : |m + q| ≤ |m + t * (x - y)| + |q - t * (x - y)| := by
      have e : m + q = (m + t * (x - y)) + (q - t * (x - y)) := by ring
      rw [e]; exact abs_add_le _ _
    have e : R'' (m + q) - (m + t * (x - y)) = (R'' (m + q) - (m + q)) + (q - t * (x - y)) := by ring
    rw [e]
    refine (abs_add_le _ _).trans ?_
    have := mul_le_mul_of_nonneg_left hs hu
    have := mul_le_mul_of_nonneg_left hq hu
    linarith
  refine h0.trans ?_
  have hB : 0 ≤ B := (abs_nonneg _).trans hm
  have huB := mul_nonneg hu hB
  have hue := mul_nonneg hu he
  have a1 : u * η ≤ 1 / 8 * η := mul_le_mul_of_nonneg_right hu8 he
  have a2 : u * (u * B) ≤ 1 / 8 * (u * B) := mul_le_mul_of_nonneg_right hu8 huB
  have b1 : u * ((1 + u) * |x - y| + η) + (u * |x - y| + η) ≤ 17 / 4 * (u * B) + 9 / 8 * η := by
    have c1 := mul_le_mul_of_nonneg_left hd hu
    have c2 := mul_le_mul_of_nonneg_left c1 hu
    nlinarith
  set Z := u * ((1 + u) * |x - y| + η) + (u * |x - y| + η)
  have b2 : t * Z ≤ t * (17 / 4 * (u * B) + 9 / 8 * η) := mul_le_mul_of_nonneg_left b1 ht
  have b3 : 0 ≤ t * (17 / 4 * (u * B) + 9 / 8 * η) := mul_nonneg ht (by linarith)
  have b4 : (1 + u) * (t * Z + η) ≤ 9 / 8 * (t * (17 / 4 * (u * B) + 9 / 8 * η) + η) := by
    refine mul_le_mul (by linarith) (by linarith) ?_ (by norm_num)
    have : 0 ≤ t * Z := mul_nonneg ht (by positivity)
    linarith
  have b5 := mul_le_mul_of_nonneg_left hm hu
  have b6 := mul_nonneg ht huB
  have b7 := mul_nonneg ht he
  nlinarith


/-- Data points that are numbers of the format, with differences of at most `D`. -/
structure Fmt.Spread (F : Fmt) (p : Nat) (emin : Int) (D : ℝ) (xs : List ℝ) : Prop where
  number : ∀ x ∈ xs, IsRep p emin x ∧ F.fits x
  rep : IsRep p emin D
  fits : F.fits D
  difference : ∀ x ∈ xs, ∀ y ∈ xs, |x - y| ≤ D

theorem Fmt.Spread.init {D : ℝ} {xs : List ℝ} {x : ℝ} (h : F.Spread p emin D (xs ++ [x])) : F.Spread p emin D xs :=
  ⟨fun y hy => h.number y (List.mem_append_left _ hy), h.rep, h.fits,
   fun y hy z hz => h.difference y (List.mem_append_left _ hy) z (List.mem_append_left _ hz)⟩

theorem Fmt.Spread.sub {D : ℝ} {xs : List ℝ} (h : F.Spread p emin D xs) {m x : ℝ} (hm : Cumulative.Within m xs) (hx : x ∈ xs) :
    -D ≤ x - m ∧ x - m ≤ D := by
  obtain ⟨⟨a, ha, ham⟩, ⟨b, hb, hmb⟩⟩ := hm
  have h1 := abs_le.1 (h.difference x hx a ha)
  have h2 := abs_le.1 (h.difference x hx b hb)
  constructor <;> linarith

namespace Excess
open Cumulative
variable {w : Nat}

theorem countIn_one (h : F.Eval W p emin q gmin) (b : Bool) {n : SizeT w} (hn : n.toNat = 1) : countIn F W b n = X.fin 1 := by
  unfold countIn
  rw [ofSize, ofSize, hn, h.wide.ofNat_one, h.narrow.ofNat_one, h.conv_fin h.narrow.isRep_one h.narrow.fits_one]
  cases b <;> rfl

theorem countIn_zero (h : F.Eval W p emin q gmin) (b : Bool) {n : SizeT w} (hn : n.toNat = 0) : countIn F W b n = X.fin 0 := by
  unfold countIn
  rw [ofSize, ofSize, hn, h.wide.ofNat_zero, h.narrow.ofNat_zero, h.conv_fin (isRep_zero _ _) h.narrow.fits_zero]
  cases b <;> rfl

/-- One push: the mean moves towards the value and not past it. -/
theorem mean_push (h : F.Eval W p emin q gmin) {D : ℝ} {xs : List ℝ} {x : ℝ} (hd : F.Spread p emin D (xs ++ [x]))
    (hw : xs.length + 1 < 2 ^ w) {s : Cumulative.Mean w (X F)} {m : ℝ} (hs : MeanInv F p emin w xs s m) (c : MeanSpills) :
    ∃ m', MeanInv F p emin w (xs ++ [x]) (Mean.push W c s (X.fin x)) m'
      ∧ (∀ b, X.spill F b (X.conv W (X.fin x : X F) - X.conv W (X.fin m : X F) : X W) = X.fin (F.rnd2 W b (x - m)))
      ∧ (∀ b, X.spill F b (X.conv W (X.fin x : X F) - X.conv W (X.fin m' : X F) : X W) = X.fin (F.rnd2 W b (x - m')))
      ∧ ((m ≤ x ∧ m' ≤ x) ∨ (x ≤ m ∧ x ≤ m'))
      ∧ (m = x → m' = x)
      ∧ (∀ d : ℝ, d ≠ 0 → countIn F W c.count (BitVec.ofNat w (xs.length + 1)) = X.fin d →
          m' = F.rnd2 W true (m + F.rnd2 W c.quot (F.rnd2 W c.diff (x - m) / d))) := by
  have hxm : x ∈ xs ++ [x] := by simp
  obtain ⟨hx, hxf⟩ := hd.number x hxm
  have hcx := h.conv_fin hx hxf
  have hcm := h.conv_fin hs.rep hs.fits
  have hc : s.count + 1 = BitVec.ofNat w (xs.length + 1) := by rw [hs.count, ofNat_add_one]
  have hself : ∀ b, X.spill F b (X.fin x - X.fin x : X W) = X.fin (F.rnd2 W b (x - x)) := by
    intro b
    rw [X.sub_fin]
    exact h.spill b (isRep_zero _ _) h.narrow.fits_zero (isRep_zero _ _) h.narrow.fits_zero (by simp) (by simp)
  have hunf : (Mean.push W c s (X.fin x)).mean = X.conv F (X.spill F c.sum (X.fin m + X.spill F c.quot
      (X.spill F c.diff (X.fin x - X.fin m : X W) / countIn F W c.count (BitVec.ofNat w (xs.length + 1))))) := by
    show X.conv F (X.spill F c.sum (X.conv W s.mean + X.spill F c.quot
      (X.spill F c.diff (X.conv W (X.fin x : X F) - X.conv W s.mean) / countIn F W c.count (s.count + 1)))) = _
    rw [hs.mean, hcm, hcx, hc]
  rw [hcx, hcm]
  by_cases h0 : xs = []
  · have hm0 := hs.empty h0
    subst hm0
    have hd1 : ∀ b, X.spill F b (X.fin x - X.fin 0 : X W) = X.fin (F.rnd2 W b (x - 0)) := by
      intro b
      rw [X.sub_fin]
      exact h.spill b hx hxf hx hxf (by simp) (by simp)
    have hone : countIn F W c.count (BitVec.ofNat w (xs.length + 1)) = X.fin 1 := by
      refine countIn_one h _ ?_
      rw [toNat_ofNat_lt hw, h0]; rfl
    have hm : (Mean.push W c s (X.fin x)).mean = X.fin x := by
      rw [hunf, hone, hd1, sub_zero, h.rnd2_exact _ hx, X.div_fin_of_ne _ one_ne_zero, div_one,
        h.spill c.quot hx hxf hx hxf le_rfl le_rfl, h.rnd2_exact _ hx, X.add_fin, zero_add,
        (h.store c.sum hx hxf hx hxf le_rfl le_rfl).1]
      exact congrArg _ (h.rnd2_exact true hx)
    refine ⟨x, ⟨hm, ?_, hx, hxf, by simp, fun _ => ⟨⟨x, hxm, le_refl _⟩, ⟨x, hxm, le_refl _⟩⟩⟩, hd1, ?_, ?_, fun _ => rfl, ?_⟩
    · show s.count + 1 = _
      rw [hc]; simp
    · rw [hcx]; exact hself
    · rcases le_total 0 x with hh | hh
      · exact Or.inl ⟨hh, le_refl _⟩
      · exact Or.inr ⟨hh, le_refl _⟩
    · intro d _ hdd
      rw [hone] at hdd
      injection hdd with hdd
      rw [← hdd, sub_zero, h.rnd2_exact _ hx, div_one, h.rnd2_exact _ hx, zero_add, h.rnd2_exact _ hx]
  · have hin := (hs.within h0).append x
    have hlen : 2 ≤ (BitVec.ofNat w (xs.length + 1)).toNat := by
      rw [toNat_ofNat_lt hw]
      have := List.length_pos_iff.2 h0; omega
    have hD0 : 0 ≤ D := (abs_nonneg _).trans (hd.difference x hxm x hxm)
    have hDn := hd.rep.neg
    have hDnf := h.narrow.fits_neg hd.fits
    obtain ⟨hl, hu⟩ := hd.sub hin hxm
    have hd1 : ∀ b, X.spill F b (X.fin x - X.fin m : X W) = X.fin (F.rnd2 W b (x - m)) := by
      intro b
      rw [X.sub_fin]
      exact h.spill b hDn hDnf hd.rep hd.fits hl hu
    -- the new mean
    have key : ∃ m', (Mean.push W c s (X.fin x)).mean = X.fin m' ∧ IsRep p emin m' ∧ F.fits m'
        ∧ (m ≤ x → m ≤ m' ∧ m' ≤ x) ∧ (x ≤ m → x ≤ m' ∧ m' ≤ m)
        ∧ (∀ d : ℝ, d ≠ 0 → countIn F W c.count (BitVec.ofNat w (xs.length + 1)) = X.fin d →
          m' = F.rnd2 W true (m + F.rnd2 W c.quot (F.rnd2 W c.diff (x - m) / d))) := by
      rw [hunf, hd1]
      rcases h.count_ge c.count _ (Or.inr rfl) hlen with e | ⟨n, hn, e⟩
      · refine ⟨m, ?_, hs.rep, hs.fits, fun h1 => ⟨le_refl _, h1⟩, fun h1 => ⟨h1, le_refl _⟩, ?_⟩
        · have e0 : (X.fin (F.rnd2 W c.diff (x - m)) / X.pinf : X W) = X.round 0 :=
            (h.wide.round_exact (isRep_zero _ _) h.wide.fits_zero).symm
          rw [e, e0, h.spill c.quot (isRep_zero _ _) h.narrow.fits_zero (isRep_zero _ _) h.narrow.fits_zero le_rfl le_rfl,
            h.rnd2_exact _ (isRep_zero _ _), X.add_fin, add_zero, (h.store c.sum hs.rep hs.fits hs.rep hs.fits le_rfl le_rfl).1]
          exact congrArg _ (h.rnd2_exact true hs.rep)
        · intro d _ hdd
          rw [e] at hdd; cases hdd
      · have hn2 : (2 : ℝ) ≤ n := by exact_mod_cast hn
        set v := F.rnd2 W c.diff (x - m) with hv
        have hvl : -D ≤ v := h.le_rnd2 _ hDn hl
        have hvu : v ≤ D := h.rnd2_le _ hd.rep hu
        have hql : -D ≤ v / n := by rw [le_div_iff₀ (by linarith)]; nlinarith
        have hqu : v / n ≤ D := by rw [div_le_iff₀ (by linarith)]; nlinarith
        rw [e, X.div_fin_of_ne _ (by linarith), h.spill c.quot hDn hDnf hd.rep hd.fits hql hqu, X.add_fin]
        have hup : m ≤ x → 0 ≤ F.rnd2 W c.quot (v / n) ∧ F.rnd2 W c.quot (v / n) ≤ x - m := fun hmx =>
          ⟨h.rnd2_nonneg _ (div_nonneg (h.rnd2_nonneg _ (by linarith)) (by linarith)), h.quot_le _ _ hs.rep hx hmx hn2⟩
        have hdn : x ≤ m → x - m ≤ F.rnd2 W c.quot (v / n) ∧ F.rnd2 W c.quot (v / n) ≤ 0 := fun hmx =>
          ⟨h.le_quot _ _ hs.rep hx hmx hn2,
            h.rnd2_nonpos _ (div_nonpos_of_nonpos_of_nonneg (h.rnd2_nonpos _ (by linarith)) (by linarith))⟩
        have hst : X.conv F (X.spill F c.sum (X.round (m + F.rnd2 W c.quot (v / n)) : X W))
              = X.fin (F.rnd2 W true (m + F.rnd2 W c.quot (v / n))) ∧ F.fits (F.rnd2 W true (m + F.rnd2 W c.quot (v / n))) := by
          rcases le_total m x with hmx | hmx
          · obtain ⟨g1, g2⟩ := hup hmx
            exact h.store c.sum hs.rep hs.fits hx hxf (by linarith) (by linarith)
          · obtain ⟨g1, g2⟩ := hdn hmx
            exact h.store c.sum hx hxf hs.rep hs.fits (by linarith) (by linarith)
        refine ⟨_, hst.1, h.narrow.rep _, hst.2, ?_, ?_, ?_⟩
        · intro hmx
          obtain ⟨g1, g2⟩ := hup hmx
          exact ⟨h.le_rnd2 _ hs.rep (by linarith), h.rnd2_le _ hx (by linarith)⟩
        · intro hmx
          obtain ⟨g1, g2⟩ := hdn hmx
          exact ⟨h.le_rnd2 _ hx (by linarith), h.rnd2_le _ hs.rep (by linarith)⟩
        · intro d _ hdd
          injection hdd with hdd
          rw [← hdd]
    obtain ⟨m', h1, h2, h3, h4, h5, h6⟩ := key
    have hin' : Within m' (xs ++ [x]) := by
      rcases le_total m x with h | h
      · obtain ⟨⟨a, ha, ham⟩, -⟩ := hin
        exact ⟨⟨a, ha, ham.trans (h4 h).1⟩, ⟨x, hxm, (h4 h).2⟩⟩
      · obtain ⟨-, ⟨b, hb, hmb⟩⟩ := hin
        exact ⟨⟨x, hxm, (h5 h).1⟩, ⟨b, hb, (h5 h).2.trans hmb⟩⟩
    refine ⟨m', ⟨h1, ?_, h2, h3, by simp, fun _ => hin'⟩, hd1, ?_, ?_, ?_, h6⟩
    · show s.count + 1 = _
      rw [hc]; simp
    · intro b
      obtain ⟨hl', hu'⟩ := hd.sub hin' hxm
      rw [h.conv_fin h2 h3, X.sub_fin]
      exact h.spill b hDn hDnf hd.rep hd.fits hl' hu'
    · rcases le_total m x with h | h
      · exact Or.inl ⟨h, (h4 h).2⟩
      · exact Or.inr ⟨h, (h5 h).1⟩
    · rintro rfl; exact le_antisymm (h4 (le_refl _)).2 (h4 (le_refl _)).1

/-- `+inf` or a number not below `s`. -/
def AtLeast {G : Fmt} (s : ℝ) (x : X G) : Prop := x = X.pinf ∨ ∃ v : ℝ, s ≤ v ∧ x = X.fin v

theorem atLeast_round {G : Fmt} {pg : Nat} {eg : Int} (hG : G.Binary pg eg) {s r : ℝ} (hs : IsRep pg eg s) (h0 : 0 ≤ s)
    (hr : s ≤ r) : AtLeast s (X.round r : X G) := by
  rcases hG.round_nonneg (h0.trans hr) with e | ⟨d, -, -, -, h5, h6⟩
  · exact Or.inl e
  · exact Or.inr ⟨d, by rw [h5]; exact hG.le_rnd hs hr, h6⟩

theorem AtLeast.conv {G H : Fmt} {pg : Nat} {eg : Int} (hG : G.Binary pg eg) {s : ℝ} (hs : IsRep pg eg s) (h0 : 0 ≤ s) {x : X H}
    (hx : AtLeast s x) : AtLeast s (X.conv G x) := by
  rcases hx with rfl | ⟨v, hv, rfl⟩
  · exact Or.inl rfl
  · exact atLeast_round hG hs h0 hv

theorem AtLeast.spill (h : F.Eval W p emin q gmin) (b : Bool) {s : ℝ} (hs : IsRep p emin s) (h0 : 0 ≤ s) {x : X W}
    (hx : AtLeast s x) : AtLeast s (X.spill F b x) := by
  cases b
  · exact hx
  · exact (hx.conv h.narrow hs h0).conv h.wide (h.wider.rep hs) h0

/-- A stored sum with a product that is not negative. -/
theorem addMul_nonneg (h : F.Eval W p emin q gmin) (c : SumSpills) {x : X F} (hx : NonNeg F p emin x) {a b : X W} {va vb : ℝ}
    (ha : X.spill F c.left a = X.fin va) (hb : X.spill F c.right b = X.fin vb) (hab : 0 ≤ va * vb) :
    NonNeg F p emin (addMul W c x a b) ∧ le x (addMul W c x a b) = true := by
  have hprod : AtLeast 0 (X.spill F c.prod (X.fin va * X.fin vb : X W)) := by
    rw [X.mul_fin]
    exact (atLeast_round h.wide (isRep_zero _ _) le_rfl hab).spill h _ (isRep_zero _ _) le_rfl
  have key : ∀ s : ℝ, 0 ≤ s → IsRep p emin s → (∀ y : X W, AtLeast s y →
      NonNeg F p emin (X.conv F (X.spill F c.sum y)) ∧ AtLeast s (X.conv F (X.spill F c.sum y))) := by
    intro s h0 hs y hy
    have hz := hy.spill h c.sum hs h0
    refine ⟨?_, hz.conv h.narrow hs h0⟩
    rcases hz with e | ⟨v, hv, e⟩
    · rw [e]; exact Or.inl rfl
    · rw [e]; exact nonNeg_round h.narrow (h0.trans hv)
  unfold addMul
  rw [ha, hb]
  rcases hx with rfl | ⟨s, h0, hs, hf, rfl⟩
  · have e : (if c.fused = true then Fused.fma (X.fin va) (X.fin vb) (X.conv W (X.pinf : X F))
        else X.conv W (X.pinf : X F) + X.spill F c.prod (X.fin va * X.fin vb)) = (X.pinf : X W) := by
      cases hfu : c.fused
      · rcases hprod with e | ⟨v, -, e⟩ <;> rw [e] <;> rfl
      · rfl
    simp only [e]
    have e2 : X.conv F (X.spill F c.sum (X.pinf : X W)) = X.pinf := by cases c.sum <;> rfl
    rw [e2]
    exact ⟨Or.inl rfl, rfl⟩
  · rw [h.conv_fin hs hf]
    have hy : AtLeast s (if c.fused = true then Fused.fma (X.fin va) (X.fin vb) (X.fin s)
        else X.fin s + X.spill F c.prod (X.fin va * X.fin vb) : X W) := by
      cases hfu : c.fused
      · rcases hprod with e | ⟨v, hv, e⟩
        · rw [e]; exact Or.inl rfl
        · rw [e, if_neg (by simp), X.add_fin]
          exact atLeast_round h.wide (h.wider.rep hs) h0 (by linarith)
      · exact atLeast_round h.wide (h.wider.rep hs) h0 (by linarith : s ≤ va * vb + s)
    obtain ⟨g1, g2⟩ := key s h0 hs _ hy
    refine ⟨g1, ?_⟩
    rcases g2 with e | ⟨v, hv, e⟩
    · simp only [e]; rfl
    · simp only [e]; rw [X.le_fin]; exact decide_eq_true hv

theorem variance_push (h : F.Eval W p emin q gmin) {D : ℝ} {xs : List ℝ} {x : ℝ} (hd : F.Spread p emin D (xs ++ [x]))
    (hw : xs.length + 1 < 2 ^ w) {s : Cumulative.Variance w (X F)} {m : ℝ} (hs : MeanInv F p emin w xs s.super m)
    (hv : NonNeg F p emin s.sumVariance) (c : MeanSpills × SumSpills) :
    (∃ m', MeanInv F p emin w (xs ++ [x]) (Variance.push W c s (X.fin x)).super m')
      ∧ NonNeg F p emin (Variance.push W c s (X.fin x)).sumVariance
      ∧ le s.sumVariance (Variance.push W c s (X.fin x)).sumVariance = true
      ∧ (m = x ∨ xs = [] → s.sumVariance = X.fin 0 → (Variance.push W c s (X.fin x)).sumVariance = X.fin 0
          ∧ (Variance.push W c s (X.fin x)).super.mean = X.fin x) := by
  obtain ⟨m', h1, h2, h3, h4, h5, h6⟩ := mean_push h hd hw hs c.1
  have e : (Variance.push W c s (X.fin x)).sumVariance = addMul W c.2 s.sumVariance
      (X.conv W (X.fin x : X F) - X.conv W (X.fin m : X F)) (X.conv W (X.fin x : X F) - X.conv W (X.fin m' : X F)) := by
    show addMul W c.2 s.sumVariance (X.conv W (X.fin x : X F) - X.conv W s.super.mean)
      (X.conv W (X.fin x : X F) - X.conv W (Mean.push W c.1 s.super (X.fin x)).mean) = _
    rw [hs.mean, h1.mean]
  have hab : 0 ≤ F.rnd2 W c.2.left (x - m) * F.rnd2 W c.2.right (x - m') := by
    rcases h4 with ⟨g1, g2⟩ | ⟨g1, g2⟩
    · exact mul_nonneg (h.rnd2_nonneg _ (by linarith)) (h.rnd2_nonneg _ (by linarith))
    · exact mul_nonneg_of_nonpos_of_nonpos (h.rnd2_nonpos _ (by linarith)) (h.rnd2_nonpos _ (by linarith))
  obtain ⟨g1, g2⟩ := addMul_nonneg h c.2 hv (h2 c.2.left) (h3 c.2.right) hab
  rw [e]
  refine ⟨⟨m', h1⟩, g1, g2, fun hm h0 => ?_⟩
  have hm' : m' = x := by
    rcases hm with hm | hm
    · exact h5 hm
    · subst hm
      have := h1.within (by simp)
      obtain ⟨⟨a, ha, ham⟩, ⟨b, hb, hmb⟩⟩ := this
      simp only [List.nil_append, List.mem_singleton] at ha hb
      subst ha; subst hb
      exact le_antisymm hmb ham
  subst hm'
  refine ⟨?_, h1.mean⟩
  have z2 : ∀ b, X.spill F b (X.round 0 : X W) = X.fin 0 := fun b => by
    rw [h.spill b (isRep_zero _ _) h.narrow.fits_zero (isRep_zero _ _) h.narrow.fits_zero le_rfl le_rfl, h.rnd2_exact _ (isRep_zero _ _)]
  have z3 : X.conv F (X.spill F c.2.sum (X.round 0 : X W)) = X.fin 0 := by
    rw [(h.store c.2.sum (isRep_zero _ _) h.narrow.fits_zero (isRep_zero _ _) h.narrow.fits_zero le_rfl le_rfl).1]
    exact congrArg _ (h.rnd2_exact true (isRep_zero _ _))
  unfold addMul
  rw [h2, h3, sub_self, h.rnd2_exact _ (isRep_zero _ _), h0, h.conv_fin (isRep_zero _ _) h.narrow.fits_zero]
  cases hfu : c.2.fused
  · simp only [X.mul_fin, mul_zero, z2, X.add_fin, add_zero, Bool.false_eq_true, if_false]
    exact h.narrow.round_exact (isRep_zero _ _) h.narrow.fits_zero
  · have : (Fused.fma (X.fin (F.rnd2 W c.2.left (m' - m))) (X.fin 0) (X.fin 0) : X W) = X.round 0 := by
      show X.round (F.rnd2 W c.2.left (m' - m) * 0 + 0) = _
      rw [mul_zero, add_zero]
    simp only [if_true, this]
    exact z3

end Excess
end Verif

namespace Verif.Excess
open Scalar Cumulative
variable {w : Nat} {F W : Fmt} {p q : Nat} {emin gmin : Int} {u η u' η' : ℝ}

theorem Mean.run_eq (ops : List (Op (MeanSpills × X F))) :
    (Mean.run W ops : Cumulative.Mean w (X F)) = (sinceClear ops).foldl (fun s i => Mean.push W i.1 s i.2) Cumulative.Mean.init :=
  runOps_eq _ _ _ Cumulative.Mean.clear_eq ops

theorem Variance.run_eq (ops : List (Op ((MeanSpills × SumSpills) × X F))) :
    (Variance.run W ops : Cumulative.Variance w (X F))
      = (sinceClear ops).foldl (fun s i => Variance.push W i.1 s i.2) Cumulative.Variance.init :=
  runOps_eq _ _ _ Cumulative.Variance.clear_eq ops

/-- A value that is pushed, with the choices of the compiler. -/
abbrev fin1 {β : Type} (i : β × ℝ) : β × X F := (i.1, X.fin i.2)

theorem mean_fold (h : F.Eval W p emin q gmin) {D : ℝ} (is : List (MeanSpills × ℝ)) (hd : F.Spread p emin D (is.map Prod.snd))
    (hw : is.length < 2 ^ w) :
    ∃ m, MeanInv F p emin w (is.map Prod.snd)
      ((is.map fin1).foldl (fun s i => Mean.push W i.1 s i.2) (Cumulative.Mean.init : Cumulative.Mean w (X F))) m := by
  induction is using List.reverseRecOn with
  | nil => exact ⟨0, MeanInv.nil h.narrow⟩
  | append_singleton is i ih =>
    rw [List.length_append, List.length_singleton] at hw
    rw [List.map_append, List.map_singleton] at hd
    obtain ⟨m, hm⟩ := ih hd.init (by omega)
    obtain ⟨m', h', -⟩ := mean_push h hd (by rw [List.length_map]; omega) hm i.1
    rw [List.map_append, List.map_append, List.map_singleton, List.map_singleton, List.foldl_append]
    exact ⟨m', h'⟩

theorem variance_fold (h : F.Eval W p emin q gmin) {D : ℝ} (is : List ((MeanSpills × SumSpills) × ℝ))
    (hd : F.Spread p emin D (is.map Prod.snd)) (hw : is.length < 2 ^ w) :
    (∃ m, MeanInv F p emin w (is.map Prod.snd)
      ((is.map fin1).foldl (fun s i => Variance.push W i.1 s i.2) (Cumulative.Variance.init : Cumulative.Variance w (X F))).super m)
      ∧ NonNeg F p emin
        ((is.map fin1).foldl (fun s i => Variance.push W i.1 s i.2) (Cumulative.Variance.init : Cumulative.Variance w (X F))).sumVariance := by
  induction is using List.reverseRecOn with
  | nil => exact ⟨⟨0, MeanInv.nil h.narrow⟩, Or.inr ⟨0, le_refl _, isRep_zero _ _, h.narrow.fits_zero, h.narrow.ofNat_zero⟩⟩
  | append_singleton is i ih =>
    rw [List.length_append, List.length_singleton] at hw
    rw [List.map_append, List.map_singleton] at hd
    obtain ⟨⟨m, hm⟩, hv⟩ := ih hd.init (by omega)
    obtain ⟨h1, h2, -⟩ := variance_push h hd (by rw [List.length_map]; omega) hm hv i.1
    rw [List.map_append, List.map_append, List.map_singleton, List.map_singleton, List.foldl_append]
    exact ⟨h1, h2⟩

/-- A count of at most `2^p` is exact. -/
theorem countIn_exact (h : F.Eval W p emin q gmin) (b : Bool) {n : Nat} (hw : n < 2 ^ w) (hp : n ≤ 2 ^ p) (hfit : F.fits (n : ℝ)) :
    countIn F W b (BitVec.ofNat w n) = X.fin (n : ℝ) := by
  have hr : IsRep p emin (n : ℝ) := by
    have := isRep_mul (p := p) (emin := emin) (m := n) (e := 0) (by have := h.narrow.digits; omega) h.narrow.emin_le
      (by rw [abs_of_nonneg (by positivity)]; exact_mod_cast hp)
    simpa using this
  unfold countIn
  rw [ofSize, ofSize, toNat_ofNat_lt hw, X.ofNat_eq, X.ofNat_eq, h.narrow.round_exact hr hfit,
    h.wide.round_exact (h.wider.rep hr) (h.wider.fits _ hfit), h.conv_fin hr hfit]
  cases b <;> rfl

theorem mean_err (h : F.Eval W p emin q gmin) (hF : F.Err u η) (hW : W.Err u' η') (hu8 : u + u' + u * u' ≤ 1 / 8) {B D : ℝ}
    (is : List (MeanSpills × ℝ)) (hd : F.Spread p emin D (is.map Prod.snd))
    (hw : is.length < 2 ^ w) (hp : is.length ≤ 2 ^ p) (hfit : F.fits (is.length : ℝ)) (hB : ∀ x ∈ is.map Prod.snd, |x| ≤ B) :
    ∃ m, MeanInv F p emin w (is.map Prod.snd)
      ((is.map fin1).foldl (fun s i => Mean.push W i.1 s i.2) (Cumulative.Mean.init : Cumulative.Mean w (X F))) m
      ∧ is.length * |m - Spec.mean (is.map Prod.snd)|
        ≤ is.length * (5 * ((u + u' + u * u') * B) + 2 * (η + (1 + u) * η'))
          + is.length * (is.length + 1) / 2 * ((u + u' + u * u') * B + 3 * (η + (1 + u) * η')) := by
  set U := u + u' + u * u' with hU
  set H := η + (1 + u) * η' with hH
  have hU0 : 0 ≤ U := by have := hF.u_nonneg; have := hW.u_nonneg; positivity
  have hH0 : 0 ≤ H := by have := hF.u_nonneg; have := hF.eta_nonneg; have := hW.eta_nonneg; positivity
  induction is using List.reverseRecOn with
  | nil => exact ⟨0, MeanInv.nil h.narrow, by simp⟩
  | append_singleton is i ih =>
    rw [List.length_append, List.length_singleton] at hw hp hfit ⊢
    rw [List.map_append, List.map_singleton] at hd hB
    have hxB : |i.2| ≤ B := hB i.2 (by simp)
    have hB0 : 0 ≤ B := (abs_nonneg _).trans hxB
    obtain ⟨m, hm, he⟩ := ih hd.init (by omega) (by omega)
      (h.narrow.fits_abs _ _ (by push_cast; rw [abs_of_nonneg (by positivity), abs_of_nonneg (by positivity)]; linarith) hfit)
      (fun y hy => hB y (List.mem_append_left _ hy))
    obtain ⟨m', hm', -, -, -, -, hr⟩ := mean_push h hd (by rw [List.length_map]; omega) hm i.1
    rw [List.map_append, List.map_append, List.map_singleton, List.map_singleton, List.foldl_append]
    refine ⟨m', hm', ?_⟩
    set xs := is.map Prod.snd with hxs
    have hlen : xs.length = is.length := List.length_map _
    set n := is.length with hn
    set x := i.2 with hx
    have hpos : (0 : ℝ) < (n : ℝ) + 1 := by positivity
    have hc : countIn F W i.1.count (BitVec.ofNat w (xs.length + 1)) = X.fin ((n : ℝ) + 1) := by
      rw [hlen, countIn_exact h _ hw hp hfit]; push_cast; rfl
    have hr := hr _ hpos.ne' hc
    have hmB : |m| ≤ B := by
      rcases eq_or_ne xs [] with h0 | h0
      · rw [hm.empty h0, abs_zero]; exact hB0
      · obtain ⟨⟨a, ha, ham⟩, ⟨b, hb, hmb⟩⟩ := hm.within h0
        have ha' := abs_le.1 (hB a (List.mem_append_left _ ha))
        have hb' := abs_le.1 (hB b (List.mem_append_left _ hb))
        rw [abs_le]; constructor <;> linarith
    have hr' : m' = F.rnd2 W true (m + F.rnd2 W i.1.quot (1 / ((n : ℝ) + 1) * F.rnd2 W i.1.diff (x - m))) := by
      rw [hr]; congr 3; ring
    have hle := step3_le hU0 hu8 hH0 (Fmt.Eval.rnd2_err hF hW i.1.diff) (Fmt.Eval.rnd2_err hF hW i.1.quot)
      (Fmt.Eval.rnd2_err hF hW true) (m := m) (x := x) (y := m) (t := 1 / ((n : ℝ) + 1)) (B := B) (by positivity)
      (by
        have := abs_sub x m
        linarith)
      (by
        have e : m + 1 / ((n : ℝ) + 1) * (x - m) = (n * m + x) / (n + 1) := by field_simp; ring
        rw [e, abs_div, abs_of_pos hpos, div_le_iff₀ hpos]
        refine (abs_add_le _ _).trans ?_
        rw [abs_mul, abs_of_nonneg (Nat.cast_nonneg n)]
        have := mul_le_mul_of_nonneg_left hmB (Nat.cast_nonneg (α := ℝ) n)
        linarith)
    rw [← hr'] at hle
    have hμ := spec_mean_append xs x
    rw [hlen] at hμ
    push_cast
    have e : ((n : ℝ) + 1) * (m' - Spec.mean (xs ++ [x]))
        = (n + 1) * (m' - (m + 1 / ((n : ℝ) + 1) * (x - m))) + n * (m - Spec.mean xs) := by
      rw [mul_sub, hμ]; field_simp; ring
    have e2 : ((n : ℝ) + 1) * |m' - Spec.mean (xs ++ [x])| = |((n : ℝ) + 1) * (m' - Spec.mean (xs ++ [x]))| := by
      rw [abs_mul, abs_of_pos hpos]
    rw [e2, e]
    refine (abs_add_le _ _).trans ?_
    rw [abs_mul, abs_mul, abs_of_pos hpos, abs_of_nonneg (Nat.cast_nonneg (α := ℝ) n)]
    have := mul_le_mul_of_nonneg_left hle hpos.le
    have e3 : ((n : ℝ) + 1) * (1 / ((n : ℝ) + 1) * (5 * (U * B) + 2 * H) + (U * B + 3 * H))
        = (5 * (U * B) + 2 * H) + (n + 1) * (U * B + 3 * H) := by field_simp
    rw [e3] at this
    linarith

/-- Without excess precision and contraction the model is the model of Model/Cumulative.lean. -/
theorem spill_self (hF : F.Binary p emin) (b : Bool) {x : X F} (h : X.Number p emin x) : X.spill F b x = x := by
  unfold X.spill
  rw [X.conv_self hF h, X.conv_self hF h]
  split <;> rfl

end Verif.Excess
