import Verif.Model.PlotOptions
import Mathlib.Tactic.Linarith
import Mathlib.Tactic.FieldSimp
import Mathlib.Tactic.Positivity
import Mathlib.Tactic.NormNum
import Mathlib.Tactic.Ring

/-!
# C256, C257, C258: colours, files and line styles of plots
-/

namespace Verif.PlotOptions

private theorem fresh (l : List ℕ) : l.foldr max 0 + 1 ∉ l := by
  have h : ∀ l : List ℕ, ∀ x ∈ l, x ≤ l.foldr max 0 := by
    intro l
    induction l with
    | nil => simp
    | cons y t ih =>
      intro x hx
      rcases List.mem_cons.1 hx with rfl | hx
      · simp
      · exact le_trans (ih x hx) (by simp)
  intro hm
  have := h l _ hm
  omega

/-- **C256** (proved part).  A plot for which no axes are given is drawn on a figure of its own: the file that is written shows exactly this
plot, all figures that were open stay open and as they were, and the new figure is closed at the end or left open as current figure, as
`close_when_done` says (if it says nothing: closed if the plot was saved and not shown). -/
theorem C256_new_partial {P : Type} (standard : String) (s : Screen P) (a : Ask) (p : P) (ha : a.ax = none) :
    let r := plotLocal standard s a p
    (r.2 = if a.save then some (standard, [p]) else none) ∧
    (∀ f ∈ s.figures, r.1.drawn f = s.drawn f) ∧
    ∃ k, k ∉ s.figures ∧ r.1.drawn k = [p] ∧
      r.1.figures = (if (a.save = true ∨ a.show = true) ∧ (a.close = some true ∨ (a.close = none ∧ a.save = true ∧ a.show = false))
        then s.figures else k :: s.figures) := by
  obtain ⟨fn, ax, sv, sh, cl⟩ := a
  subst ha
  have hk := fresh s.figures
  refine ⟨?_, ?_, s.figures.foldr max 0 + 1, hk, ?_, ?_⟩
  · cases sv <;> simp [plotLocal, Screen.new, Screen.draw, Screen.current]
  · intro f hf
    have hne : f ≠ s.figures.foldr max 0 + 1 := fun h => hk (h ▸ hf)
    simp only [plotLocal]
    split <;> simp [Screen.new, Screen.draw, Screen.close, hne]
  · simp only [plotLocal]
    split <;> simp [Screen.new, Screen.draw, Screen.close]
  · rcases cl with _ | cl
    · cases sv <;> cases sh <;> simp [plotLocal, Screen.new, Screen.draw, Screen.close]
    · cases cl <;> cases sv <;> cases sh <;> simp [plotLocal, Screen.new, Screen.draw, Screen.close]

example : (plotLocal "map.png" ⟨[2, 1], fun _ => ["other"]⟩ { save := true, «show» := false } "moon").2 = some ("map.png", ["moon"]) := by
  simp [plotLocal, Screen.new, Screen.draw, Screen.current]

/-- **C256** (proved part).  A plot on axes of the current figure is added to that figure, and the file shows the figure with it. -/
theorem C256_current_partial {P : Type} (standard : String) (s : Screen P) (a : Ask) (p : P) (f : ℕ) (rest : List ℕ)
    (hs : s.figures = f :: rest) (ha : a.ax = some f) :
    let r := plotLocal standard s a p
    (r.2 = if a.save then some (standard, s.drawn f ++ [p]) else none) ∧
    r.1.drawn f = s.drawn f ++ [p] ∧ (∀ g, g ≠ f → r.1.drawn g = s.drawn g) := by
  obtain ⟨fn, ax, sv, sh, cl⟩ := a
  subst ha
  refine ⟨?_, ?_, ?_⟩
  · cases sv <;> simp [plotLocal, Screen.draw, Screen.current, hs]
  · simp only [plotLocal]
    split <;> simp [Screen.draw, Screen.close]
  · intro g hg
    simp only [plotLocal]
    split <;> simp [Screen.draw, Screen.close, hg]

example : (plotLocal "map.png" ⟨[2, 1], fun _ => ["other"]⟩ { save := true, ax := some 2 } "moon").2 = some ("map.png", ["other", "moon"]) := by
  simp [plotLocal, Screen.draw, Screen.current]

/-- **C256 fails** for axes of a figure that is open but not the current one: the plot is drawn there, but the file shows the current figure,
without the plot; and where a figure is closed at the end, it is the current one and not the one with the plot. -/
theorem C256_other_fails {P : Type} (standard : String) (s : Screen P) (a : Ask) (p : P) (f g : ℕ) (rest : List ℕ)
    (hs : s.figures = g :: rest) (hfg : f ≠ g) (ha : a.ax = some f) (hsave : a.save = true) :
    let r := plotLocal standard s a p
    r.2 = some (standard, s.drawn g) ∧ r.1.drawn f = s.drawn f ++ [p] ∧
    (a.close = some true → r.1.figures = rest) := by
  obtain ⟨fn, ax, sv, sh, cl⟩ := a
  subst ha hsave
  refine ⟨?_, ?_, ?_⟩
  · simp [plotLocal, Screen.draw, Screen.current, hs, hfg.symm]
  · simp only [plotLocal]
    split <;> simp [Screen.draw, Screen.close]
  · rintro h
    simp only at h
    subst h
    simp [plotLocal, Screen.draw, Screen.close, hs]

example : (plotLocal "map.png" ⟨[2, 1], fun i => if i = 2 then ["mars"] else []⟩
    { save := true, ax := some 1, close := some true } "moon").2 = some ("map.png", ["mars"]) := by
  simp [plotLocal, Screen.draw, Screen.current]

/-- **C256 fails** for the name of the file: whatever name is given, nothing is written unless saving is asked for as well, and then the file
has the standard name. -/
theorem C256_filename_fails {P : Type} (standard : String) (s : Screen P) (a : Ask) (p : P) (name : String) :
    plotLocal standard s { a with filename := some name } p = plotLocal standard s { a with filename := none } p ∧
    (plotLocal standard s { filename := some name } p).2 = none ∧
    ∀ file, (plotLocal standard s { a with filename := some name } p).2 = some file → file.1 = standard := by
  refine ⟨rfl, rfl, ?_⟩
  intro file h
  simp only [plotLocal] at h
  split at h
  · simp only [Option.some.injEq] at h
    rw [← h]
  · simp at h

/-- **C256 fails** for `close_when_done` in plots of whole surfaces: it is ignored.  A plot that is saved and not shown is closed although it
is to stay open, and one that is shown stays open although it is to be closed. -/
theorem C256_close_fails {P : Type} (standard : String) (s : Screen P) (a : Ask) (p : P) (ha : a.ax = none) :
    (a.save = true → a.show = false → a.close = some false → (plotSurface standard s a p).1.figures = s.figures) ∧
    (a.show = true → a.close = some true → ∃ k, k ∉ s.figures ∧ (plotSurface standard s a p).1.figures = k :: s.figures) := by
  obtain ⟨-, -, k, hk, -, hf⟩ := C256_new_partial standard s { a with close := none } p ha
  refine ⟨fun h1 h2 _ => ?_, fun h1 _ => ⟨k, hk, ?_⟩⟩
  · simpa [plotSurface, h1, h2] using hf
  · simpa [plotSurface, h1] using hf

/-- **C257** (proved part).  The colour bar tells the value of every pixel: if the limits are apart, the place of the colour of a value that
lies between the limits is where the colour bar states this value, in maps and in overlays; a value beyond a limit has the colour of that
limit.  In particular values and colours are in the same order. -/
theorem C257_value_partial (a b v : ℝ) (hab : a < b) :
    overlayColour a b v = some (mapColour a b v) ∧
    colourBar a b (mapColour a b v) = max a (min b v) ∧ 0 ≤ mapColour a b v ∧ mapColour a b v ≤ 1 := by
  have hne : a ≠ b := ne_of_lt hab
  have hpos : 0 < b - a := by linarith
  refine ⟨by simp [overlayColour, mapColour, hne], ?_, ?_, ?_⟩
  · simp only [colourBar, mapColour, hne, if_false]
    rcases le_total v a with h | h
    · have h1 : (v - a) / (b - a) ≤ 0 := div_nonpos_of_nonpos_of_nonneg (by linarith) hpos.le
      rw [max_eq_left (le_trans (min_le_right _ _) h1), max_eq_left (le_trans (min_le_right _ _) h)]
      ring
    · rcases le_total v b with h' | h'
      · have h0 : 0 ≤ (v - a) / (b - a) := div_nonneg (by linarith) hpos.le
        have h1 : (v - a) / (b - a) ≤ 1 := (div_le_one hpos).2 (by linarith)
        rw [min_eq_right h1, max_eq_right h0, min_eq_right h', max_eq_right h, div_mul_cancel₀ _ hpos.ne']
        ring
      · have h1 : 1 ≤ (v - a) / (b - a) := (one_le_div hpos).2 (by linarith)
        rw [min_eq_left h1, max_eq_right zero_le_one, min_eq_left h', max_eq_right hab.le]
        ring
  · simp [mapColour, hne]
  · simp [mapColour, hne]

example : colourBar (-100) 300 (mapColour (-100) 300 200) = 200 ∧ colourBar (-100) 300 (mapColour (-100) 300 500) = 300 := by
  rw [(C257_value_partial (-100) 300 200 (by norm_num)).2.1, (C257_value_partial (-100) 300 500 (by norm_num)).2.1]
  norm_num

/-- **C257** (proved part).  Without limits from the user, every value of the raster lies between the limits, which are values of the raster
themselves, so that the colour bar tells every value as it is. -/
theorem C257_whole_partial (raster : List (Option ℝ)) (a b : ℝ) (h : limits raster none none = some (a, b)) :
    some a ∈ raster ∧ some b ∈ raster ∧
    ∀ v, some v ∈ raster → a ≤ v ∧ v ≤ b ∧ colourBar a b (mapColour a b v) = v := by
  simp only [limits, Option.orElse_eq_orElse, Option.orElse_eq_or, Option.none_or] at h
  split at h
  · rename_i x y hx hy
    simp only [Option.some.injEq, Prod.mk.injEq] at h
    obtain ⟨rfl, rfl⟩ := h
    rw [List.min?_eq_some_iff] at hx
    rw [List.max?_eq_some_iff] at hy
    simp only [List.reduceOption_mem_iff] at hx hy
    refine ⟨hx.1, hy.1, fun v hv => ?_⟩
    have h1 := hx.2 v hv
    have h2 := hy.2 v hv
    refine ⟨h1, h2, ?_⟩
    rcases eq_or_lt_of_le (le_trans h1 h2) with he | hl
    · simp only [colourBar, mapColour, he, if_true]
      linarith
    · rw [(C257_value_partial _ _ v hl).2.1, min_eq_right h2, max_eq_right h1]
  · simp at h

example : limits [some 2, none, some 5] none none = some (2, 5) := by
  have h : (5 : ℝ) ≥ 2 := by norm_num
  simp [limits, List.reduceOption, List.min?, List.max?, h]

/-- **C257** (proved part).  There are limits exactly if the raster has a value or the user gives both; a limit that the user gives is used. -/
theorem C257_limits_partial (raster : List (Option ℝ)) (vmin vmax : Option ℝ) :
    ((∃ l, limits raster vmin vmax = some l) ↔ (∃ v, some v ∈ raster) ∨ (vmin ≠ none ∧ vmax ≠ none)) ∧
    (∀ l, limits raster vmin vmax = some l → (∀ x, vmin = some x → l.1 = x) ∧ ∀ x, vmax = some x → l.2 = x) := by
  have hex : (∃ v, some v ∈ raster) ↔ raster.reduceOption ≠ [] := by
    constructor
    · rintro ⟨v, hv⟩ h
      rw [← List.reduceOption_mem_iff, h] at hv
      simp at hv
    · intro h
      obtain ⟨v, hv⟩ := List.exists_mem_of_ne_nil _ h
      exact ⟨v, List.reduceOption_mem_iff.1 hv⟩
  rw [hex]
  have hmin : raster.reduceOption.min? = none ↔ raster.reduceOption = [] := List.min?_eq_none_iff
  have hmax : raster.reduceOption.max? = none ↔ raster.reduceOption = [] := List.max?_eq_none_iff
  constructor
  · rcases hm : raster.reduceOption.min? with _ | m <;> rcases hM : raster.reduceOption.max? with _ | M <;>
      cases vmin <;> cases vmax <;> simp_all [limits]
  · intro l hl
    rcases hm : raster.reduceOption.min? with _ | m <;> rcases hM : raster.reduceOption.max? with _ | M <;>
      cases vmin <;> cases vmax <;> simp_all [limits] <;> (try (subst hl; simp_all))

/-- **C257 fails** for a variable that has the same value everywhere and is laid over a hillshade: no pixel gets a colour, as if there were no
data, though the colour bar is drawn.  In a map it has the colour of the lower end. -/
theorem C257_constant_fails (raster : List (Option ℝ)) (c : ℝ) (h : ∀ v, some v ∈ raster → v = c) (a b : ℝ)
    (hl : limits raster none none = some (a, b)) (v : ℝ) (hv : some v ∈ raster) :
    overlayColour a b v = none ∧ mapColour a b v = 0 := by
  obtain ⟨ha, hb, -⟩ := C257_whole_partial raster a b hl
  have h1 := h a ha
  have h2 := h b hb
  have h3 := h v hv
  subst h3
  subst h1
  simp [overlayColour, mapColour, h2]

example : limits [some (3 : ℝ), some 3] none none = some (3, 3) := by
  simp [limits, List.reduceOption, List.min?, List.max?]

/-- **C258** (proved part).  One kind of craters is drawn as asked; every option that is not given has its default: no filling, a line of
width 0.1, dotted for the original outlines and solid for the others. -/
theorem C258_one_partial (o : Lines) (k : Kind) :
    ∃ d, outlines o [k] = [d] ∧ d.kind = k ∧
      (∀ x, o.facecolor = some x → d.facecolor = x) ∧ (o.facecolor = none → d.facecolor = "none") ∧
      (∀ x, o.linewidth = some x → d.linewidth = x) ∧ (o.linewidth = none → d.linewidth = 1 / 10) ∧
      (∀ x, o.linestyle = some x → d.linestyle = x) ∧
      (o.linestyle = none → d.linestyle = if k = Kind.original then ":" else "solid") := by
  refine ⟨styled o k, rfl, rfl, ?_, ?_, ?_, ?_, ?_, ?_⟩
  · intro x h; simp [h]
  · intro h; simp [h]
  · intro x h; simp [h]
  · intro h; simp only [h, Option.getD_none]; norm_num
  · intro x h; simp [h]
  · intro h; cases k <;> simp [h, Kind.style]

/-- **C258** (proved part).  The outlines are those of the kinds asked for, in order: the emplaced craters lie below the observed ones. -/
theorem C258_kinds_partial (o : Lines) (ks : List Kind) : (outlines o ks).map (·.kind) = ks := by
  induction ks generalizing o with
  | nil => rfl
  | cons k t ih => simp [outlines, ih]

/-- **C258 fails** for several kinds: only the kind that is drawn first gets the options, all others are drawn with the defaults. -/
theorem C258_several_fails (o : Lines) (k : Kind) (ks : List Kind) (d : Drawn) (hd : d ∈ (outlines o (k :: ks)).tail) :
    d.facecolor = "none" ∧ d.linewidth = 1 / 10 ∧ d.linestyle = if d.kind = Kind.original then ":" else "solid" := by
  have key : ∀ ks : List Kind, d ∈ outlines {} ks →
      d.facecolor = "none" ∧ d.linewidth = 1 / 10 ∧ d.linestyle = if d.kind = Kind.original then ":" else "solid" := by
    intro ks
    induction ks with
    | nil => simp [outlines]
    | cons j t ih =>
      intro h
      rcases List.mem_cons.1 h with rfl | h
      · refine ⟨rfl, by norm_num, ?_⟩
        cases j <;> simp [Kind.style]
      · exact ih h
  exact key ks hd

example : (outlines { linewidth := some 2 } [Kind.emplaced, Kind.observed]).map (·.linewidth) = [2, 0.1] := by
  simp [outlines]

end Verif.PlotOptions
