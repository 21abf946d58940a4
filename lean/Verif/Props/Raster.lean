import Verif.Model.Raster
import Mathlib.Tactic.Linarith
import Mathlib.Tactic.FieldSimp
import Mathlib.Analysis.Real.Pi.Bounds

/-!
C198 Every place of a raster lies in exactly one pixel.
-/

namespace Verif.Raster

open Real

/-- The place lies in the pixel of a row and column, whose left and upper edges belong to it. -/
def Grid.Inside (g : Grid) (row col : ℕ) (x y : ℝ) : Prop :=
  g.left + col * g.dx ≤ x ∧ x < g.left + (col + 1) * g.dx ∧ g.top - (row + 1) * g.dy < y ∧ y ≤ g.top - row * g.dy

/-- Every place of the extent (without its right and lower edges) lies in exactly one pixel. -/
def Grid.Tiles (g : Grid) : Prop :=
  ∀ x y, g.extent.1 ≤ x → x < g.extent.2.1 → g.extent.2.2.1 < y → y ≤ g.extent.2.2.2 →
    ∃! p : ℕ × ℕ, p.1 < g.height ∧ p.2 < g.width ∧ g.Inside p.1 p.2 x y

theorem exists_cell (w : ℕ) (hw : 0 < w) (len t : ℝ) (hlen : 0 < len) (h0 : 0 ≤ t) (h1 : t < len) :
    ∃ k : ℕ, k < w ∧ k * (len / w) ≤ t ∧ t < (k + 1) * (len / w) := by
  have hw' : (0 : ℝ) < w := by exact_mod_cast hw
  have hd : 0 < len / w := by positivity
  refine ⟨⌊t / (len / w)⌋₊, ?_, ?_, ?_⟩
  · rw [Nat.floor_lt (by positivity), div_lt_iff₀ hd, mul_div_cancel₀ _ hw'.ne']
    exact h1
  · have := Nat.floor_le (show 0 ≤ t / (len / w) by positivity)
    rwa [le_div_iff₀ hd] at this
  · have := Nat.lt_floor_add_one (t / (len / w))
    rwa [div_lt_iff₀ hd] at this

theorem cell_unique (d t : ℝ) (hd : 0 < d) (j k : ℕ) (h1 : j * d ≤ t) (h2 : t < (j + 1) * d) (h3 : k * d ≤ t) (h4 : t < (k + 1) * d) : j = k := by
  have a : (j : ℝ) < k + 1 := by
    by_contra h
    push Not at h
    nlinarith
  have b : (k : ℝ) < j + 1 := by
    by_contra h
    push Not at h
    nlinarith
  have a' : j < k + 1 := by exact_mod_cast a
  have b' : k < j + 1 := by exact_mod_cast b
  omega

/-- A grid from corner to corner of its extent. -/
theorem tiles (w h : ℕ) (l t lx ly : ℝ) (hw : 0 < w) (hh : 0 < h) (hx : 0 < lx) (hy : 0 < ly) :
    Grid.Tiles ⟨w, h, l, t, lx / w, ly / h, (l, l + lx, t - ly, t)⟩ := by
  intro x y x1 x2 y1 y2
  simp only at x1 x2 y1 y2
  have hdx : 0 < lx / w := by have : (0 : ℝ) < w := by exact_mod_cast hw
                              positivity
  have hdy : 0 < ly / h := by have : (0 : ℝ) < h := by exact_mod_cast hh
                              positivity
  obtain ⟨c, hc, c1, c2⟩ := exists_cell w hw lx (x - l) hx (by linarith) (by linarith)
  obtain ⟨r, hr, r1, r2⟩ := exists_cell h hh ly (t - y) hy (by linarith) (by linarith)
  refine ⟨(r, c), ⟨hr, hc, ?_, ?_, ?_, ?_⟩, ?_⟩
  · simp only; linarith
  · simp only; linarith
  · simp only; linarith
  · simp only; linarith
  · rintro ⟨r', c'⟩ ⟨_, _, i1, i2, i3, i4⟩
    simp only at i1 i2 i3 i4
    rw [cell_unique (ly / h) (t - y) hdy r' r (by linarith) (by linarith) r1 r2,
      cell_unique (lx / w) (x - l) hdx c' c (by linarith) (by linarith) c1 c2]

theorem faceDegrees_pos (radius : ℝ) (n : ℕ) (hr : 0 < radius) (hn : 0 < n) : 0 < faceDegrees radius n := by
  have : (0 : ℝ) < n := by exact_mod_cast hn
  unfold faceDegrees
  positivity

/-- The raster of a whole surface covers the sphere from -180 to 180 and from -90 to 90 degrees, each place once. -/
theorem C198_global (radius : ℝ) (n : ℕ) (hr : 0 < radius) (hn : 0 < n) :
    (globalGrid radius n).Tiles ∧ (globalGrid radius n).extent = (-180, 180, -90, 90) := by
  have hn' : (0 : ℝ) < n := by exact_mod_cast hn
  have hf := faceDegrees_pos radius n hr hn
  have hw : 0 < ⌈(180 - -180) / faceDegrees radius n⌉₊ := Nat.ceil_pos.2 (by norm_num; positivity)
  have hh : 0 < ⌈(90 - -90) / faceDegrees radius n⌉₊ := Nat.ceil_pos.2 (by norm_num; positivity)
  refine ⟨?_, rfl⟩
  have := tiles _ _ (-180) 90 (180 - -180) (90 - -90) hw hh (by norm_num) (by norm_num)
  have e : globalGrid radius n = ⟨⌈(180 - -180) / faceDegrees radius n⌉₊, ⌈(90 - -90) / faceDegrees radius n⌉₊, -180, 90,
    (180 - -180) / ⌈(180 - -180) / faceDegrees radius n⌉₊, (90 - -90) / ⌈(90 - -90) / faceDegrees radius n⌉₊,
    (-180, -180 + (180 - -180), 90 - (90 - -90), 90)⟩ := by
    norm_num [globalGrid, globalDims]
  rw [e]
  exact this

/-- The raster of a region covers it with a border of four pixels on each side, each place once, with square pixels. -/
theorem C198_local (r pix : ℝ) (hr : 0 < r) (hp : 0 < pix) :
    (localGrid r pix).Tiles ∧ (localGrid r pix).dx = (localGrid r pix).dy ∧
      (localGrid r pix).extent = (-(r + 4 * pix), r + 4 * pix, -(r + 4 * pix), r + 4 * pix) := by
  have hw : 0 < max 1 ⌈2 * r / pix⌉₊ := by positivity
  refine ⟨?_, rfl, rfl⟩
  have := tiles _ _ (-(r + 4 * pix)) (r + 4 * pix) (2 * (r + 4 * pix)) (2 * (r + 4 * pix)) hw hw (by positivity) (by positivity)
  have e1 : -(r + 4 * pix) + 2 * (r + 4 * pix) = r + 4 * pix := by ring
  have e2 : r + 4 * pix - 2 * (r + 4 * pix) = -(r + 4 * pix) := by ring
  rw [e1, e2] at this
  exact this

/-- Two places of a region of 50 m with pixels of 10 m: both in the raster, in different pixels. -/
example : ∃ p q : ℕ × ℕ, p ≠ q ∧ (localGrid 50 10).Inside p.1 p.2 0 0 ∧ (localGrid 50 10).Inside q.1 q.2 45 (-30) := by
  have hw : max 1 ⌈(2 * 50 / 10 : ℝ)⌉₊ = 10 := by norm_num
  have hg : localGrid 50 10 = ⟨10, 10, -90, 90, 18, 18, (-90, 90, -90, 90)⟩ := by
    simp only [localGrid, localDims, hw]
    norm_num
  refine ⟨(5, 5), (6, 7), by decide, ?_, ?_⟩ <;> rw [hg] <;> norm_num [Grid.Inside]

end Verif.Raster
