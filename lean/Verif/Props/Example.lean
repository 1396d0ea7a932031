import Verif.Model.Example
import Verif.Props.CumulativePairs
import Verif.Props.Window
/-
C95: the example programs print one line for each line of the file.
-/
namespace Verif.Props
open Scalar Verif.Example

variable {w : Nat} {α σ : Type} [Scalar α]

/-- One printed line for each point: the point, and slope and intercept after it. -/
def perLine (f : Filter σ α) (s : σ) : List (α × α) → Option (List (Line α))
  | [] => some []
  | p :: ps => (f.push s p).bind fun s =>
      (perLine f s ps).map (List.cons (p.1, p.2, f.slope s, f.at' s (ofNat 0)))

/-- C95 as stated, for a program with the filter `f`. -/
def C95_Statement (f : Filter σ α) : Prop := ∀ ps : List (α × α), main f (some ps) = perLine f f.init ps

theorem loop_failed (f : Filter σ α) (x y : Option α) (s : σ) (ps : List (α × α)) :
    loop f ⟨ps, true⟩ x y s = some [] := by
  rw [loop]; simp

theorem loop_cons (f : Filter σ α) (x y : Option α) (s : σ) (p : α × α) (ps : List (α × α)) :
    loop f ⟨p :: ps, false⟩ x y s = (f.push s p).bind fun s =>
      (loop f ⟨ps, false⟩ (some p.1) (some p.2) s).map
        (List.cons (p.1, p.2, f.slope s, f.at' s (ofNat 0))) := by
  rw [loop, dif_pos rfl]
  show (match f.push s p with
    | none => none
    | some filter => (loop f ⟨ps, false⟩ (some p.1) (some p.2) filter).map _) = _
  cases f.push s p <;> rfl

theorem loop_end (f : Filter σ α) (x y : α) (s : σ) :
    loop f ⟨[], false⟩ (some x) (some y) s = perLine f s [(x, y)] := by
  rw [loop, dif_pos rfl]
  show (match f.push s (x, y) with
    | none => none
    | some filter => (loop f ⟨[], true⟩ (some x) (some y) filter).map _) = _
  simp only [loop_failed, perLine]
  cases f.push s (x, y) <;> rfl

theorem loop_rest (f : Filter σ α) (ps : List (α × α)) :
    ∀ (x y : α) (s : σ), loop f ⟨ps, false⟩ (some x) (some y) s
      = perLine f s (ps ++ [(ps.getLast?).getD (x, y)]) := by
  induction ps with
  | nil => intro x y s; rw [loop_end]; rfl
  | cons p ps ih =>
    intro x y s
    rw [loop_cons, List.cons_append, perLine]
    congr 1
    funext s'
    rw [ih]
    congr 4
    cases ps <;> simp [List.getLast?_cons]

/-- C95, what the programs do with a file that is not empty: they process the last line twice. -/
theorem C95_last_twice (f : Filter σ α) (ps : List (α × α)) (h : ps ≠ []) :
    main f (some ps) = perLine f f.init (ps ++ [ps.getLast h]) := by
  cases ps with
  | nil => exact absurd rfl h
  | cons p ps =>
    show loop f ⟨p :: ps, false⟩ none none f.init = _
    rw [loop_cons, List.cons_append, perLine]
    congr 1
    funext s
    rw [loop_rest]
    congr 4
    cases ps with
    | nil => rfl
    | cons a l => rw [List.getLast_cons (by simp), List.getLast?_eq_getLast_of_ne_nil (by simp)]; rfl

/-- With an empty file the programs read uninitialized variables: undefined behaviour. -/
theorem C95_empty (f : Filter σ α) : main f (some []) = none := by
  show loop f ⟨[], false⟩ none none f.init = none
  rw [loop]
  simp [Stream.extract]

/-- With a file that cannot be opened they print nothing. -/
theorem C95_missing_file (f : Filter σ α) : main f (none : Option (List (α × α))) = some [] :=
  loop_failed f none none f.init []

theorem length_perLine (f : Filter σ α) (ps : List (α × α)) :
    ∀ (s : σ) (out : List (Line α)), perLine f s ps = some out → out.length = ps.length := by
  induction ps with
  | nil => intro s out h; cases h; rfl
  | cons p ps ih =>
    intro s out h
    rw [perLine, Option.bind_eq_some_iff] at h
    obtain ⟨s', -, h⟩ := h
    rw [Option.map_eq_some_iff] at h
    obtain ⟨l, hl, rfl⟩ := h
    simp [ih s' l hl]

/-- C95 is violated by both programs, in every arithmetic: an empty file. -/
theorem C95_violated : ¬ C95_Statement (cumulative w α) ∧ ¬ C95_Statement (window α) := by
  constructor <;>
  · intro h
    have := h []
    rw [C95_empty] at this
    cases this

/-- C95 is also violated by every file that is not empty, as long as the filter accepts the points: one line too
many is printed. -/
theorem C95_one_too_many (f : Filter σ α) (ps : List (α × α)) (h : ps ≠ []) (out : List (Line α))
    (ho : main f (some ps) = some out) : out.length = ps.length + 1 ∧ main f (some ps) ≠ perLine f f.init ps := by
  rw [C95_last_twice f ps h] at ho
  have hl := length_perLine f _ _ _ ho
  rw [List.length_append, List.length_singleton] at hl
  refine ⟨hl, fun e => ?_⟩
  rw [C95_last_twice f ps h, ho] at e
  have := length_perLine f _ _ _ e.symm
  omega

theorem perLine_append (f : Filter σ α) (ps qs : List (α × α)) :
    ∀ (s : σ) (out : List (Line α)), perLine f s (ps ++ qs) = some out →
      ∃ s' l, ps.foldlM f.push s = some s' ∧ perLine f s ps = some (out.take ps.length)
        ∧ perLine f s' qs = some l ∧ l = out.drop ps.length := by
  induction ps with
  | nil => intro s out h; exact ⟨s, out, rfl, by simp [perLine], h, by simp⟩
  | cons p ps ih =>
    intro s out h
    rw [List.cons_append, perLine, Option.bind_eq_some_iff] at h
    obtain ⟨s1, h1, h⟩ := h
    rw [Option.map_eq_some_iff] at h
    obtain ⟨l, hl, rfl⟩ := h
    obtain ⟨s', l', a, b, c, d⟩ := ih s1 l hl
    refine ⟨s', l', ?_, ?_, c, by simpa using d⟩
    · rw [List.foldlM_cons, h1]; exact a
    · rw [perLine, h1, Option.bind_some, b]; simp

/-- C95 for all but the last printed line: these are right.
Missing for the full statement: the line printed after the end of the file, see `C95_last_twice`. -/
theorem C95_lines_partial (f : Filter σ α) (ps : List (α × α)) (h : ps ≠ []) (out : List (Line α))
    (ho : main f (some ps) = some out) : perLine f f.init ps = some out.dropLast := by
  have hlen := (C95_one_too_many f ps h out ho).1
  rw [C95_last_twice f ps h] at ho
  obtain ⟨-, -, -, b, -⟩ := perLine_append f ps _ _ _ ho
  rw [b, List.dropLast_eq_take, hlen]
  rfl

/-- The cumulative filter accepts every point. -/
theorem perLine_cumulative (ps : List (α × α)) : ∀ s, ∃ out, perLine (cumulative w α) s ps = some out := by
  induction ps with
  | nil => exact fun s => ⟨[], rfl⟩
  | cons p ps ih =>
    intro s
    obtain ⟨out, h⟩ := ih (s.push p)
    refine ⟨(p.1, p.2, (s.push p).slope, (s.push p).at' (ofNat 0)) :: out, ?_⟩
    rw [perLine]
    show (perLine (cumulative w α) (s.push p) ps).map _ = _
    rw [h]
    rfl

/-- Three points, four printed lines. -/
example (a b c : α × α) : ∃ out, main (cumulative 64 α) (some [a, b, c]) = some out ∧ out.length = 4 := by
  obtain ⟨out, h⟩ := perLine_cumulative (w := 64) [a, b, c, c] Cumulative.Regression.init
  have h' : main (cumulative 64 α) (some [a, b, c]) = some out :=
    (C95_last_twice (cumulative 64 α) [a, b, c] (by simp)).trans h
  exact ⟨out, h', (C95_one_too_many _ [a, b, c] (by simp) out h').1⟩

open Exact in
/-- C95, exact arithmetic: the line that the cumulative program prints last is fitted to the points with the last
one counted twice, not to the points of the file. -/
theorem C95_last_fit {ε : ℝ} (ps : List (ℝ × ℝ)) (h : ps ≠ []) (hn : ps.length + 1 < 2 ^ w) :
    ∃ (out : List (Line (E ε))) (a b : ℝ),
      main (cumulative w (E ε)) (some (ps.map fun p => (X.fin p.1, X.fin p.2))) = some out
      ∧ out.getLast? = some (X.fin (ps.getLast h).1, X.fin (ps.getLast h).2, X.fin b, X.fin a)
      ∧ ∀ a' b' : ℝ, Spec.sse a b (ps ++ [ps.getLast h]) ≤ Spec.sse a' b' (ps ++ [ps.getLast h]) := by
  set q := ps.getLast h with hq
  obtain ⟨a, b, hb, ha, hmin, -⟩ := C12_least_squares (w := w) (ε := ε) ((ps ++ [q]).map .push)
    (by rw [sinceClear_pushes]; simpa using hn) (by rw [sinceClear_pushes]; simp)
  rw [sinceClear_pushes] at hmin
  have hne : (ps.map fun p => ((X.fin p.1, X.fin p.2) : E ε × E ε)) ≠ [] := by simpa using h
  have hlast : (ps.map fun p => ((X.fin p.1, X.fin p.2) : E ε × E ε)).getLast hne = (X.fin q.1, X.fin q.2) := by
    rw [List.getLast_map]
  obtain ⟨out, ho⟩ := perLine_cumulative (w := w) (α := E ε)
    ((ps.map fun p => (X.fin p.1, X.fin p.2)) ++ [(X.fin q.1, X.fin q.2)]) Cumulative.Regression.init
  refine ⟨out, a, b, ?_, ?_, hmin⟩
  · rw [C95_last_twice _ _ hne, hlast]; exact ho
  · obtain ⟨s', l, e1, -, e3, e4⟩ := perLine_append _ _ _ _ _ ho
    have hs : s'.push (X.fin q.1, X.fin q.2)
        = (Cumulative.Regression.run (finOps2 ((ps ++ [q]).map .push)) : Cumulative.Regression w (E ε)) := by
      have hf : ∀ (l : List (E ε × E ε)) (s : Cumulative.Regression w (E ε)),
          l.foldlM (cumulative w (E ε)).push s = some (l.foldl Cumulative.Regression.push s) := by
        intro l
        induction l with
        | nil => exact fun s => rfl
        | cons p l ih => exact fun s => ih (s.push p)
      rw [hf] at e1
      cases e1
      rw [Cumulative.Regression.run, finOps2, List.map_map, List.map_append, runOps_append, List.foldl_map]
      show _ = Cumulative.Regression.push (runOps _ _ _ (ps.map _)) _
      rw [runOps, List.foldl_map]
      rfl
    have e3' : l = [(X.fin q.1, X.fin q.2, X.fin b, X.fin a)] := by
      have : perLine (cumulative w (E ε)) s' [(X.fin q.1, X.fin q.2)]
          = some [(X.fin q.1, X.fin q.2, (s'.push (X.fin q.1, X.fin q.2)).slope,
              (s'.push (X.fin q.1, X.fin q.2)).at' (ofNat 0))] := rfl
      rw [this, hs, hb, Exact.ofNat_eq, ha] at e3
      cases e3
      simp
    rw [e3', eq_comm] at e4
    rw [← List.take_append_drop (ps.map fun p => ((X.fin p.1, X.fin p.2) : E ε × E ε)).length out, e4,
      List.getLast?_append]
    rfl

open Exact in
/-- The points (0, 0), (1, 1), (2, 0). -/
example {ε : ℝ} : ∃ (out : List (Line (E ε))) (a b : ℝ),
    main (cumulative 64 (E ε)) (some ([(0, 0), (1, 1), (2, 0)].map fun p => (X.fin p.1, X.fin p.2))) = some out
      ∧ out.getLast? = some (X.fin 2, X.fin 0, X.fin b, X.fin a)
      ∧ ∀ a' b' : ℝ, Spec.sse a b [(0, 0), (1, 1), (2, 0), (2, 0)] ≤ Spec.sse a' b' [(0, 0), (1, 1), (2, 0), (2, 0)] :=
  C95_last_fit [(0, 0), (1, 1), (2, 0)] (by simp) (by norm_num)

theorem perLine_of_foldlM (f : Filter σ α) (ps : List (α × α)) :
    ∀ s s' : σ, ps.foldlM f.push s = some s' → ∃ out, perLine f s ps = some out := by
  induction ps with
  | nil => exact fun s s' _ => ⟨[], rfl⟩
  | cons p ps ih =>
    intro s s' h
    rw [List.foldlM_cons] at h
    rw [perLine]
    cases hp : f.push s p with
    | none => rw [hp] at h; cases h
    | some t =>
      rw [hp] at h
      obtain ⟨out, ho⟩ := ih t s' h
      exact ⟨_, by rw [Option.bind_some, ho, Option.map_some]⟩

theorem foldlM_window (N : Nat) (l : List (α × α)) :
    l.foldlM (Window.Regression.push (W := N)) Window.Regression.init = Window.Regression.run (l.map Op.push) := by
  induction l using List.reverseRecOn with
  | nil => rfl
  | append_singleton l p ih =>
    rw [List.foldlM_append, ih, List.map_append, Window.Regression.run, Window.Regression.run, runOps_append]
    cases runOps (some (Window.Regression.init : Window.Regression N α)) _ _ (l.map Op.push) with
    | none => rfl
    | some s => simp; rfl

open Exact in
/-- C95, exact arithmetic: the line that the window program prints last is fitted to the last 64 of the points of the file
and the last one again. -/
theorem C95_last_fit_window {ε : ℝ} (ps : List (ℝ × ℝ)) (h : ps ≠ []) :
    ∃ (out : List (Line (E ε))) (a b : ℝ),
      main (window (E ε)) (some (ps.map fun p => (X.fin p.1, X.fin p.2))) = some out
      ∧ out.getLast? = some (X.fin (ps.getLast h).1, X.fin (ps.getLast h).2, X.fin b, X.fin a)
      ∧ ∀ a' b' : ℝ, Spec.sse a b (Spec.lastN 64 (ps ++ [ps.getLast h])) ≤ Spec.sse a' b' (Spec.lastN 64 (ps ++ [ps.getLast h])) := by
  set q := ps.getLast h with hq
  obtain ⟨s, hs, a, b, hb, ha, hmin, -⟩ := C21_window_least_squares (N := 64) (ε := ε) (by norm_num) ((ps ++ [q]).map .push)
    (by rw [sinceClear_pushes]; simp)
  rw [sinceClear_pushes] at hmin
  have hne : (ps.map fun p => ((X.fin p.1, X.fin p.2) : E ε × E ε)) ≠ [] := by simpa using h
  have hlast : (ps.map fun p => ((X.fin p.1, X.fin p.2) : E ε × E ε)).getLast hne = (X.fin q.1, X.fin q.2) := by
    rw [List.getLast_map]
  have hrun : List.foldlM (window (E ε)).push (window (E ε)).init
      ((ps.map fun p : ℝ × ℝ => ((X.fin p.1, X.fin p.2) : E ε × E ε)) ++ [(X.fin q.1, X.fin q.2)]) = some s := by
    rw [← hs, finOps2, List.map_map]
    refine (foldlM_window 64 _).trans ?_
    rw [List.map_append, List.map_map, List.map_append]
    rfl
  obtain ⟨out, ho⟩ := perLine_of_foldlM (window (E ε)) _ _ _ hrun
  refine ⟨out, a, b, ?_, ?_, hmin⟩
  · rw [C95_last_twice _ _ hne, hlast]; exact ho
  · obtain ⟨s', l, e1, -, e3, e4⟩ := perLine_append _ _ _ _ _ ho
    rw [List.foldlM_append, e1] at hrun
    have hp : (window (E ε)).push s' (X.fin q.1, X.fin q.2) = some s := by
      simpa using hrun
    have e3' : l = [(X.fin q.1, X.fin q.2, X.fin b, X.fin a)] := by
      rw [perLine, hp] at e3
      have h1 : (window (E ε)).slope s = X.fin b := hb
      have h2 : (window (E ε)).at' s (ofNat 0) = X.fin a := by
        rw [Exact.ofNat_eq]; refine (ha _).trans ?_; simp
      rw [Option.bind_some, perLine, h1, h2] at e3
      cases e3
      rfl
    rw [e3', eq_comm] at e4
    rw [← List.take_append_drop (ps.map fun p => ((X.fin p.1, X.fin p.2) : E ε × E ε)).length out, e4,
      List.getLast?_append]
    rfl

open Exact in
/-- A file of the 100 points (k, k^2): the last line is fitted to 37, ..., 99 and 99. -/
example {ε : ℝ} : ∃ (out : List (Line (E ε))) (a b : ℝ),
    main (window (E ε)) (some (((List.range 100).map fun k : Nat => ((k : ℝ), (k : ℝ) ^ 2)).map fun p => (X.fin p.1, X.fin p.2))) = some out
      ∧ out.getLast? = some (X.fin 99, X.fin (99 ^ 2), X.fin b, X.fin a) := by
  obtain ⟨out, a, b, h1, h2, -⟩ := C95_last_fit_window (ε := ε) ((List.range 100).map fun k : Nat => ((k : ℝ), (k : ℝ) ^ 2)) (by simp)
  refine ⟨out, a, b, h1, ?_⟩
  rw [h2, List.getLast_map, List.getLast_range]
  norm_num

end Verif.Props
