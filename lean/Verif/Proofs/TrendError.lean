import Verif.Proofs.ErrorBound
import Verif.Proofs.Cumulative
/-
Rounding error of the trend.
-/
namespace Verif
open Scalar

variable {F : Fmt} {p : Nat} {emin : Int} {u η : ℝ} {w : Nat}

namespace Cumulative
open Spec (runningMeans)

/-- The bound of the rounding error of the mean of `n` values. -/
noncomputable def meanErr (u η B : ℝ) (n : Nat) : ℝ := (((n : ℝ) + 1) / 2 + 5) * (u * B) + (3 * ((n : ℝ) + 1) / 2 + 2) * η

theorem meanErr_mono (hE : F.Err u η) {B : ℝ} (hB : 0 ≤ B) {m n : Nat} (h : m ≤ n) : meanErr u η B m ≤ meanErr u η B n := by
  unfold meanErr
  have h1 : (m : ℝ) ≤ n := by exact_mod_cast h
  have h2 := mul_nonneg hE.u_nonneg hB
  have h3 := hE.eta_nonneg
  nlinarith

theorem Mean.rounded_error (hF : F.Binary p emin) (hE : F.Err u η) {B : ℝ} (xs : List ℝ) (hne : xs ≠ []) (hd : F.Data p emin xs)
    (hw : xs.length < 2 ^ w) (hp : xs.length ≤ 2 ^ p) (hfit : F.fits (xs.length : ℝ)) (hB : ∀ x ∈ xs, |x| ≤ B) :
    ∃ m, MeanInv F p emin w xs ((xs.map X.fin).foldl Mean.push Mean.init) m ∧ |m - Spec.mean xs| ≤ meanErr u η B xs.length := by
  obtain ⟨m, hm, he⟩ := Mean.rounded_err (w := w) hF hE xs hd hw hp hfit hB
  refine ⟨m, hm, ?_⟩
  have hpos : (0 : ℝ) < xs.length := by exact_mod_cast List.length_pos_iff.2 hne
  refine le_of_mul_le_mul_left (he.trans (le_of_eq ?_)) hpos
  unfold meanErr
  ring

theorem Within.abs_le {m B : ℝ} {xs : List ℝ} (h : Within m xs) (hB : ∀ x ∈ xs, |x| ≤ B) : |m| ≤ B := by
  obtain ⟨⟨a, ha, ham⟩, ⟨b, hb, hmb⟩⟩ := h
  have ha' := _root_.abs_le.1 (hB a ha)
  have hb' := _root_.abs_le.1 (hB b hb)
  rw [_root_.abs_le]; constructor <;> linarith

/-- The differences of numbers within the data do not overflow. -/
theorem Within.fits_sub (hF : F.Binary p emin) {m m' : ℝ} {xs : List ℝ} (hd : F.Data p emin xs) (h : Within m xs) (h' : Within m' xs) :
    F.fits (F.rnd (m - m')) := by
  obtain ⟨⟨a, ha, ham⟩, ⟨b, hb, hmb⟩⟩ := h
  obtain ⟨⟨a', ha', ham'⟩, ⟨b', hb', hmb'⟩⟩ := h'
  exact hF.fits_between (hd.difference a ha b' hb') (hd.difference b hb a' ha') (hF.mono (by linarith)) (hF.mono (by linarith))

/-- The state of the trend: the mean, and the mean of the rounded running means. -/
theorem Trend.rounded (hF : F.Binary p emin) (hE : F.Err u η) {B : ℝ} {N : Nat} (hB0 : 0 ≤ B) (xs : List ℝ) (hd : F.Data p emin xs)
    (hw : xs.length < 2 ^ w) (hp : xs.length ≤ 2 ^ p) (hfit : F.fits (xs.length : ℝ)) (hB : ∀ x ∈ xs, |x| ≤ B) (hN : xs.length ≤ N) :
    ∃ ms : List ℝ, (xs.map X.fin).foldl Trend.push (Trend.init : Trend w (X F))
        = ⟨(xs.map X.fin).foldl Mean.push Mean.init, (ms.map X.fin).foldl Mean.push Mean.init⟩
      ∧ ms.length = xs.length ∧ (∀ m ∈ ms, IsRep p emin m ∧ F.fits m ∧ Within m xs)
      ∧ |ms.sum - (runningMeans xs).sum| ≤ xs.length * meanErr u η B N := by
  induction xs using List.reverseRecOn with
  | nil => exact ⟨[], rfl, rfl, by simp, by simp [runningMeans]⟩
  | append_singleton xs x ih =>
    rw [List.length_append, List.length_singleton] at hw hp hfit hN
    have hfit' : F.fits (xs.length : ℝ) :=
      hF.fits_abs _ _ (by push_cast; rw [abs_of_nonneg (by positivity), abs_of_nonneg (by positivity)]; linarith) hfit
    obtain ⟨ms, h1, h2, h3, h4⟩ := ih hd.init (by omega) (by omega) hfit' (fun y hy => hB y (List.mem_append_left _ hy)) (by omega)
    have hlen : (xs ++ [x]).length = xs.length + 1 := by simp
    obtain ⟨m, hm, he⟩ := Mean.rounded_error (w := w) hF hE (xs ++ [x]) (by simp) hd (by rw [hlen]; exact hw) (by rw [hlen]; exact hp)
      (by rw [hlen]; exact hfit) hB
    refine ⟨ms ++ [m], ?_, by simp [h2], ?_, ?_⟩
    · rw [List.map_append, List.map_singleton, List.foldl_append, h1, List.map_append, List.map_singleton, List.foldl_append,
        List.foldl_append]
      have hc := hm.mean
      rw [List.map_append, List.map_singleton, List.foldl_append] at hc
      simp only [List.foldl_cons, List.foldl_nil] at hc ⊢
      show (⟨_, Mean.push _ (Mean.push _ _).mean⟩ : Trend w (X F)) = _
      rw [hc]
    · intro y hy
      rcases List.mem_append.1 hy with hy | hy
      · exact ⟨(h3 y hy).1, (h3 y hy).2.1, (h3 y hy).2.2.append x⟩
      · rw [List.mem_singleton.1 hy]
        exact ⟨hm.rep, hm.fits, hm.within (by simp)⟩
    · rw [Spec.runningMeans_snoc, List.sum_append, List.sum_append, List.sum_singleton, List.sum_singleton, hlen]
      have e : ms.sum + m - ((runningMeans xs).sum + Spec.mean (xs ++ [x]))
        = (ms.sum - (runningMeans xs).sum) + (m - Spec.mean (xs ++ [x])) := by ring
      rw [e]
      refine (abs_add_le _ _).trans ?_
      have h5 := meanErr_mono hE hB0 (m := (xs ++ [x]).length) (n := N) (by rw [hlen]; exact hN)
      push_cast
      linarith

/-- The error of the trend. -/
theorem Trend.rounded_error (hF : F.Binary p emin) (hE : F.Err u η) {B K : ℝ} (xs : List ℝ) (hne : xs ≠ []) (hd : F.Data p emin xs)
    (hw : xs.length < 2 ^ w) (hp : xs.length ≤ 2 ^ p) (hfit : F.fits (xs.length : ℝ)) (hB : ∀ x ∈ xs, |x| ≤ B)
    (hK : IsRep p emin K) (hKf : F.fits K) (hBK : 8 * (B + η) ≤ K) :
    ∃ v, ((xs.map X.fin).foldl Trend.push (Trend.init : Trend w (X F))).value = X.fin v
      ∧ |v - (3 * Spec.mean xs - 2 * Spec.mean (runningMeans xs))| ≤ 7 * meanErr u η B xs.length + 15 * (u * B) + 5 * η := by
  obtain ⟨x0, hx0⟩ := List.exists_mem_of_ne_nil _ hne
  have hB0 : 0 ≤ B := (abs_nonneg _).trans (hB x0 hx0)
  obtain ⟨ms, h1, h2, h3, h4⟩ := Trend.rounded (w := w) hF hE hB0 xs hd hw hp hfit hB (le_refl _)
  have hmsne : ms ≠ [] := by
    rw [← List.length_pos_iff, h2]; exact List.length_pos_iff.2 hne
  have hdms : F.Data p emin ms :=
    ⟨fun m hm => ⟨(h3 m hm).1, (h3 m hm).2.1⟩, fun m hm m' hm' => (h3 m hm).2.2.fits_sub hF hd (h3 m' hm').2.2⟩
  have hmsB : ∀ m ∈ ms, |m| ≤ B := fun m hm => (h3 m hm).2.2.abs_le hB
  obtain ⟨c, hc, hce⟩ := Mean.rounded_error (w := w) hF hE xs hne hd hw hp hfit hB
  obtain ⟨g, hg, hge⟩ := Mean.rounded_error (w := w) hF hE ms hmsne hdms (by rw [h2]; exact hw) (by rw [h2]; exact hp)
    (by rw [h2]; exact hfit) hmsB
  rw [h2] at hge
  set E := meanErr u η B xs.length with hEdef
  have hnpos : (0 : ℝ) < xs.length := by exact_mod_cast List.length_pos_iff.2 hne
  have hG : |Spec.mean ms - Spec.mean (runningMeans xs)| ≤ E := by
    unfold Spec.mean
    rw [h2, Spec.length_runningMeans, ← sub_div, abs_div, abs_of_pos hnpos, div_le_iff₀ hnpos]
    linarith
  have hcB : |c| ≤ B := (hc.within hne).abs_le hB
  have hgw : Within g xs := by
    obtain ⟨⟨a, ha, hag⟩, ⟨b, hb, hgb⟩⟩ := hg.within hmsne
    obtain ⟨a', ha', ha''⟩ := (h3 a ha).2.2.1
    obtain ⟨b', hb', hb''⟩ := (h3 b hb).2.2.2
    exact ⟨⟨a', ha', by linarith⟩, ⟨b', hb', by linarith⟩⟩
  have hgB : |g| ≤ B := hgw.abs_le hB
  have hu := hE.u_nonneg
  have hu8 := hE.u_le
  have hη := hE.eta_nonneg
  have huB := mul_nonneg hu hB0
  have huη := mul_nonneg hu hη
  have huB8 : u * B ≤ 1 / 8 * B := mul_le_mul_of_nonneg_right hu8 hB0
  have huη8 : u * η ≤ 1 / 8 * η := mul_le_mul_of_nonneg_right hu8 hη
  have hin : ∀ {r : ℝ}, |r| ≤ K → F.fits (F.rnd r) := by
    intro r hr
    have := _root_.abs_le.1 hr
    exact hF.fits_between (hF.fits_neg hKf) hKf (hF.le_rnd hK.neg this.1) (hF.rnd_le hK this.2)
  have hfin : ∀ {r : ℝ}, |r| ≤ K → (X.round r : X F) = X.fin (F.rnd r) := by
    intro r hr
    unfold X.round; rw [if_pos (hin hr)]
  -- the difference
  have d0 : |c - g| ≤ 2 * B := (_root_.abs_sub c g).trans (by linarith)
  have d1 := hE.err (c - g)
  set d := F.rnd (c - g) with hd'
  have d2 : u * |c - g| ≤ 2 * (u * B) := by
    have := mul_le_mul_of_nonneg_left d0 hu; linarith
  have d3 : |d| ≤ 9 / 4 * B + η := by
    have h := abs_add_le (d - (c - g)) (c - g)
    rw [sub_add_cancel] at h
    linarith
  -- twice the difference
  have q0 : |2 * d| ≤ 9 / 2 * B + 2 * η := by
    rw [abs_mul, abs_of_pos (by norm_num : (0 : ℝ) < 2)]; linarith
  have q1 := hE.err (2 * d)
  set q := F.rnd (2 * d) with hq'
  have q2 : u * |2 * d| ≤ 9 / 2 * (u * B) + 2 * (u * η) := by
    have := mul_le_mul_of_nonneg_left q0 hu; linarith
  have q3 : |q| ≤ 41 / 8 * B + 4 * η := by
    have h := abs_add_le (q - 2 * d) (2 * d)
    rw [sub_add_cancel] at h
    linarith
  -- the sum
  have v0 : |c + q| ≤ 49 / 8 * B + 4 * η := (abs_add_le c q).trans (by linarith)
  have v1 := hE.err (c + q)
  have v2 : u * |c + q| ≤ 49 / 8 * (u * B) + 4 * (u * η) := by
    have := mul_le_mul_of_nonneg_left v0 hu; linarith
  refine ⟨F.rnd (c + q), ?_, ?_⟩
  · rw [h1]
    show Mean.mean _ + ofNat 2 * (Mean.mean _ - Mean.mean _) = _
    have e2 : (ofNat 2 : X F) = X.fin 2 := by
      rw [X.ofNat_eq]; exact hF.round_exact hF.isRep_two hF.fits_two
    rw [hc.mean, hg.mean, e2, X.sub_fin, hfin (by linarith), X.mul_fin, hfin (by linarith), X.add_fin, hfin (by linarith)]
  · have e : F.rnd (c + q) - (3 * Spec.mean xs - 2 * Spec.mean (runningMeans xs))
        = (F.rnd (c + q) - (c + q)) + (q - 2 * d) + 2 * (d - (c - g)) + 3 * (c - Spec.mean xs) - 2 * (g - Spec.mean ms)
          - 2 * (Spec.mean ms - Spec.mean (runningMeans xs)) := by ring
    rw [e]
    rw [_root_.abs_le] at v1 q1 d1 hce hge hG ⊢
    constructor <;> linarith [v1.1, v1.2, q1.1, q1.2, d1.1, d1.2, hce.1, hce.2, hge.1, hge.2, hG.1, hG.2]

end Cumulative
end Verif
