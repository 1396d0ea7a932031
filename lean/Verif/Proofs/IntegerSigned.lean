import Verif.Proofs.IntegerTypes
/-
For signed types the model of `Verif/Model/IntegerTypes.lean` is that of `Verif/Model/Integer.lean`.
-/
namespace Verif.IntT
open CInt Verif.Integer

variable {w b ib : Nat}

theorem has_signed {b : Nat} {z : Int} : (⟨b, true⟩ : Ty).Has z ↔ InRange b z := Iff.rfl

theorem promote_signed : (⟨ib, w⟩ : Platform).promote ⟨b, true⟩ = ⟨promoted b ib, true⟩ := by
  unfold Platform.promote promoted
  split <;> rename_i h
  · show (⟨ib, true⟩ : Ty) = _
    have : b < ib := h
    rw [max_eq_right (by omega)]
  · have : ¬ b < ib := h
    rw [max_eq_left (by omega)]

theorem result_checked (p : Nat) (z : Int) : Platform.result ⟨p, true⟩ z = (checked p z).map (Val.mk ⟨p, true⟩) := by
  unfold Platform.result checked
  rw [if_pos rfl]
  by_cases h : InRange p z
  · rw [if_pos h, if_pos (has_signed.2 h)]; rfl
  · rw [if_neg h, if_neg (fun h' => h (has_signed.1 h'))]; rfl

theorem checked_inRange {p : Nat} {z y : Int} (h : checked p z = some y) : InRange p y := by
  unfold checked at h
  split at h
  · obtain rfl := Option.some.inj h; assumption
  · cases h

theorem divS_inRange {p : Nat} {x z y : Int} (h : divS p x z = some y) : InRange p y := by
  unfold divS at h
  split at h
  · cases h
  · exact checked_inRange h

theorem wrapS_inRange (hb : 1 ≤ b) (z : Int) : InRange b (wrapS b z) := has_signed.1 (Ty.has_conv (t := ⟨b, true⟩) hb z)

section
variable {p : Nat} {P : Platform} {x y : Val} (hp : 1 ≤ p) (hx : P.promote x.ty = ⟨p, true⟩) (hy : P.promote y.ty = ⟨p, true⟩)
  (hxv : InRange p x.val) (hyv : InRange p y.val)
include hp hx hy hxv hyv

theorem sub_signed : P.sub x y = (checked p (x.val - y.val)).map (Val.mk ⟨p, true⟩) := by
  rw [Platform.sub_eq (U := ⟨p, true⟩) hp hx hy hxv hyv, result_checked]

theorem add_signed : P.add x y = (checked p (x.val + y.val)).map (Val.mk ⟨p, true⟩) := by
  rw [Platform.add_eq (U := ⟨p, true⟩) hp hx hy hxv hyv, result_checked]

theorem mul_signed : P.mul x y = (checked p (x.val * y.val)).map (Val.mk ⟨p, true⟩) := by
  rw [Platform.mul_eq (U := ⟨p, true⟩) hp hx hy hxv hyv, result_checked]

theorem div_signed : P.div x y = (divS p x.val y.val).map (Val.mk ⟨p, true⟩) := by
  unfold divS
  by_cases h : y.val = 0
  · rw [if_pos h, Platform.div_zero (U := ⟨p, true⟩) hp hx hy hyv h]; rfl
  · rw [if_neg h, Platform.div_eq (U := ⟨p, true⟩) hp hx hy hxv hyv h, result_checked]
end

theorem size_conv_count (c : BitVec w) : (⟨ib, w⟩ : Platform).size.conv ((c.toNat : Int) + 1) = ((c + 1).toNat : Int) := by
  rw [Ty.conv_unsigned rfl]
  rw [BitVec.toNat_add, BitVec.ofNat_eq_ofNat, BitVec.toNat_ofNat]
  show ((c.toNat : Int) + 1) % 2 ^ w = _
  push_cast
  rw [Int.add_emod_emod]

/-- The state of the one model as a state of the other. -/
def ofMean (s : Integer.Mean w) : Mean := ⟨s.mean, s.count.toNat⟩

theorem mean_push (hb : 1 ≤ b) (s : Integer.Mean w) (hs : InRange b s.mean) {x : Int} (hx : InRange b x) :
    Mean.push ⟨ib, w⟩ ⟨b, true⟩ (ofMean s) x = (s.push b ib x).map ofMean := by
  have hp : 1 ≤ promoted b ib := hb.trans (le_max_left _ _)
  have pr := promote_signed (w := w) (b := b) (ib := ib)
  have pr2 : (⟨ib, w⟩ : Platform).promote ⟨promoted b ib, true⟩ = ⟨promoted b ib, true⟩ := by
    rw [← pr, Platform.promote_promote]
  have hm : ∀ {z : Int}, InRange b z → InRange (promoted b ib) z := inRange_mono (le_max_left _ _)
  unfold Mean.push Integer.Mean.push ofMean
  simp only [size_conv_count]
  rw [sub_signed hp pr pr (hm hx) (hm hs)]
  simp only [Option.bind_eq_bind]
  cases h1 : checked (promoted b ib) (x - s.mean) with
  | none => rfl
  | some d =>
    simp only [Option.map_some, Option.bind_some]
    rw [div_signed (x := ⟨⟨promoted b ib, true⟩, d⟩) hp pr2 pr (checked_inRange h1) (hm (wrapS_inRange hb _))]
    show ((divS (promoted b ib) d (wrapS b ((s.count + 1).toNat : Int))).map _).bind _ = _
    cases h2 : divS (promoted b ib) d (wrapS b ((s.count + 1).toNat : Int)) with
    | none => rfl
    | some q =>
      simp only [Option.map_some, Option.bind_some]
      rw [add_signed (y := ⟨⟨promoted b ib, true⟩, q⟩) hp pr pr2 (hm hs) (divS_inRange h2)]
      cases h3 : checked (promoted b ib) (s.mean + q) with
      | none => rfl
      | some r => rfl

theorem mean_push_inRange (hb : 1 ≤ b) {s t : Integer.Mean w} {x : Int} (h : s.push b ib x = some t) : InRange b t.mean := by
  unfold Integer.Mean.push at h
  simp only [Option.bind_eq_bind, Option.bind_eq_some_iff] at h
  obtain ⟨d, -, q, -, r, -, h⟩ := h
  obtain rfl := Option.some.inj h
  exact wrapS_inRange hb r

/-- The models of the mean agree on every list of values. -/
theorem mean_run (hb : 1 ≤ b) (xs : List Int) (hx : ∀ x ∈ xs, InRange b x) :
    Mean.run ⟨ib, w⟩ ⟨b, true⟩ xs = (Integer.Mean.run b ib xs : Option (Integer.Mean w)).map ofMean := by
  have h0 : InRange b (Integer.Mean.init : Integer.Mean w).mean := has_signed.1 (Ty.has_zero ⟨b, true⟩)
  have e0 : Mean.init = ofMean (Integer.Mean.init : Integer.Mean w) := by simp [Mean.init, ofMean, Integer.Mean.init]
  unfold Mean.run Integer.Mean.run
  rw [e0]
  generalize (Integer.Mean.init : Integer.Mean w) = s at h0
  induction xs generalizing s with
  | nil => rfl
  | cons x xs ih =>
    rw [List.foldlM_cons, List.foldlM_cons, mean_push hb s h0 (hx x (by simp))]
    cases h : s.push b ib x with
    | none => rfl
    | some t => exact ih (fun y hy => hx y (by simp [hy])) t (mean_push_inRange hb h)

/-- The models of the window mean agree. -/
def ofWMean (s : Integer.WMean) : WMean := ⟨s.window, s.mean⟩

theorem wmean_push (hb : 1 ≤ b) {N : Nat} (hN : N < 2 ^ w) (s : Integer.WMean) (hlen : s.window.length ≤ N)
    (hi : ib ≤ w) (hib : 2 ≤ ib) (hs : InRange b s.mean) (hwin : ∀ y ∈ s.window, InRange b y)
    {x : Int} (hx : InRange b x) :
    WMean.push ⟨ib, w⟩ ⟨b, true⟩ N (ofWMean s) x = (s.push b ib N x).map ofWMean := by
  have hp : 1 ≤ promoted b ib := hb.trans (le_max_left _ _)
  have pr := promote_signed (w := w) (b := b) (ib := ib)
  have pr2 : (⟨ib, w⟩ : Platform).promote ⟨promoted b ib, true⟩ = ⟨promoted b ib, true⟩ := by
    rw [← pr, Platform.promote_promote]
  have hm : ∀ {z : Int}, InRange b z → InRange (promoted b ib) z := inRange_mono (le_max_left _ _)
  unfold WMean.push Integer.WMean.push ofWMean
  by_cases hfull : s.window.length = N
  · simp only [if_pos hfull, Option.bind_eq_bind]
    cases hf : s.window.head? with
    | none => rfl
    | some f =>
      simp only [Option.bind_some]
      have hfr : InRange b f := hwin f (List.mem_of_head? hf)
      rw [sub_signed hp pr pr (hm hx) (hm hfr)]
      cases h1 : checked (promoted b ib) (x - f) with
      | none => rfl
      | some d =>
        simp only [Option.map_some, Option.bind_some]
        rw [div_signed (x := ⟨⟨promoted b ib, true⟩, d⟩) hp pr2 pr (checked_inRange h1) (hm (wrapS_inRange hb _))]
        show ((divS (promoted b ib) d (wrapS b (s.window.length : Int))).map _).bind _ = _
        cases h2 : divS (promoted b ib) d (wrapS b (s.window.length : Int)) with
        | none => rfl
        | some q =>
          simp only [Option.map_some, Option.bind_some]
          rw [add_signed (y := ⟨⟨promoted b ib, true⟩, q⟩) hp pr pr2 (hm hs) (divS_inRange h2)]
          cases h3 : checked (promoted b ib) (s.mean + q) with
          | none => rfl
          | some r => rfl
  · have hadd : (⟨ib, w⟩ : Platform).add ((⟨ib, w⟩ : Platform).sz s.window.length) ((⟨ib, w⟩ : Platform).lit 1)
        = some ⟨⟨w, false⟩, ((s.window.length + 1 : Nat) : Int)⟩ := by
      have hlt : s.window.length + 1 < 2 ^ w := by omega
      have hc : (⟨ib, w⟩ : Platform).common (⟨w, false⟩ : Ty) ⟨ib, true⟩ = ⟨w, false⟩ :=
        Platform.common_size_left (P := ⟨ib, w⟩) (t := ⟨ib, true⟩) (by
          unfold Platform.promote; rw [if_neg (by simp)]; exact hi) hi
      have hw1 : 1 ≤ w := by omega
      have c1 : (⟨w, false⟩ : Ty).conv (s.window.length : Int) = s.window.length :=
        Ty.conv_of_has hw1 ⟨by simp [Ty.lo], by
          show (s.window.length : Int) < 2 ^ w
          exact_mod_cast (by omega : s.window.length < 2 ^ w)⟩
      have c2 : (⟨w, false⟩ : Ty).conv 1 = 1 :=
        Ty.conv_of_has hw1 ⟨by simp [Ty.lo], by
          show (1 : Int) < 2 ^ w
          exact one_lt_pow₀ (by norm_num) (by omega)⟩
      unfold Platform.add Platform.sz Platform.lit Platform.size Platform.int
      simp only [hc, c1, c2]
      rw [Platform.result_has hw1]
      · push_cast; rfl
      · refine ⟨by show (0 : Int) ≤ _; omega, ?_⟩
        show (s.window.length : Int) + 1 < 2 ^ w
        exact_mod_cast hlt
    simp only [if_neg hfull, Option.bind_eq_bind]
    rw [hadd]
    simp only [Option.bind_some]
    rw [sub_signed hp pr pr (hm hx) (hm hs)]
    cases h1 : checked (promoted b ib) (x - s.mean) with
    | none => rfl
    | some d =>
      simp only [Option.map_some, Option.bind_some]
      rw [div_signed (x := ⟨⟨promoted b ib, true⟩, d⟩) hp pr2 pr (checked_inRange h1) (hm (wrapS_inRange hb _))]
      show ((divS (promoted b ib) d (wrapS b ((s.window.length + 1 : Nat) : Int))).map _).bind _ = _
      have e : ((s.window.length + 1 : Nat) : Int) = (s.window.length : Int) + 1 := by push_cast; rfl
      rw [e]
      cases h2 : divS (promoted b ib) d (wrapS b ((s.window.length : Int) + 1)) with
      | none => rfl
      | some q =>
        simp only [Option.map_some, Option.bind_some]
        rw [add_signed (y := ⟨⟨promoted b ib, true⟩, q⟩) hp pr pr2 (hm hs) (divS_inRange h2)]
        cases h3 : checked (promoted b ib) (s.mean + q) with
        | none => rfl
        | some r => rfl

/-- The models of the comoment agree. -/
def ofComoment (s : Integer.Comoment w) : Comoment := ⟨ofMean s.xCenter, ofMean s.yCenter, s.center⟩

theorem comoment_push (hb : 1 ≤ b) (s : Integer.Comoment w) (hsx : InRange b s.xCenter.mean) (hsy : InRange b s.yCenter.mean)
    (hc : InRange b s.center) {pt : Int × Int} (hx : InRange b pt.1) (hy : InRange b pt.2) :
    Comoment.push ⟨ib, w⟩ ⟨b, true⟩ (ofComoment s) pt = (s.push b ib pt).map ofComoment := by
  have hp : 1 ≤ promoted b ib := hb.trans (le_max_left _ _)
  have pr := promote_signed (w := w) (b := b) (ib := ib)
  have pr2 : (⟨ib, w⟩ : Platform).promote ⟨promoted b ib, true⟩ = ⟨promoted b ib, true⟩ := by
    rw [← pr, Platform.promote_promote]
  have hm : ∀ {z : Int}, InRange b z → InRange (promoted b ib) z := inRange_mono (le_max_left _ _)
  unfold Comoment.push Integer.Comoment.push ofComoment
  simp only [mean_push hb s.xCenter hsx hx, mean_push hb s.yCenter hsy hy, Option.bind_eq_bind]
  cases h0 : s.xCenter.push b ib pt.1 with
  | none => rfl
  | some xc =>
    simp only [Option.map_some, Option.bind_some]
    have hxc := mean_push_inRange hb h0
    rw [sub_signed hp pr pr (hm hx) (hm (z := (ofMean xc).mean) hxc), sub_signed hp pr pr (hm hy) (hm (z := (ofMean s.yCenter).mean) hsy)]
    show ((checked (promoted b ib) (pt.1 - xc.mean)).map _).bind _ = _
    cases h1 : checked (promoted b ib) (pt.1 - xc.mean) with
    | none => rfl
    | some dx =>
      simp only [Option.map_some, Option.bind_some]
      show ((checked (promoted b ib) (pt.2 - s.yCenter.mean)).map _).bind _ = _
      cases h2 : checked (promoted b ib) (pt.2 - s.yCenter.mean) with
      | none => rfl
      | some dy =>
        simp only [Option.map_some, Option.bind_some]
        rw [mul_signed (x := ⟨⟨promoted b ib, true⟩, dx⟩) (y := ⟨⟨promoted b ib, true⟩, dy⟩) hp pr2 pr2 (checked_inRange h1)
          (checked_inRange h2)]
        cases h3 : checked (promoted b ib) (dx * dy) with
        | none => rfl
        | some pq =>
          simp only [Option.map_some, Option.bind_some]
          rw [add_signed (y := ⟨⟨promoted b ib, true⟩, pq⟩) hp pr pr2 (hm hc) (checked_inRange h3)]
          cases h4 : checked (promoted b ib) (s.center + pq) with
          | none => rfl
          | some r =>
            simp only [Option.map_some, Option.bind_some]
            cases h5 : s.yCenter.push b ib pt.2 with
            | none => rfl
            | some yc => rfl

end Verif.IntT
