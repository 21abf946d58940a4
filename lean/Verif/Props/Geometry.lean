import Verif.Model.Geometry
import Mathlib.Tactic.Linarith
import Mathlib.Tactic.FieldSimp
import Mathlib.Tactic.Ring
import Mathlib.Tactic.NormNum
import Mathlib.Tactic.Positivity

/-! C159: lengths and areas belong to the target; C160: elevations as points in space. -/

namespace Verif.Geometry

/-! ### C159 -/

/-- The sizes of the faces on a sphere of radius `r`. -/
noncomputable def sizes (g : Grid) (r : ℝ) : List ℝ := g.areas.map fun x => Real.sqrt (x * r ^ 2)

/-- What each property is on a sphere of radius `r`: areas scale with `r²`, lengths and coordinates with
`r`. -/
noncomputable def truth (g : Grid) (r : ℝ) : Query → Value
  | .faceArea => .many (g.areas.map fun x => x * r ^ 2)
  | .faceSize => .many (sizes g r)
  | .pixMean => .one ((sizes g r).sum / (sizes g r).length)
  | .pix => .one ((sizes g r).sum / (sizes g r).length)
  | .area => .one (g.areas.map fun x => x * r ^ 2).sum
  | .smallestLength => .one (least (sizes g r) * 1e-5)
  | .facePos => .points (g.faces.map fun v => ⟨r * v.x, r * v.y, r * v.z⟩)
  | .nodePos => .points (g.nodes.map fun v => ⟨r * v.x, r * v.y, r * v.z⟩)
  | .faceDistance => .many (g.faceAngles.map fun a => r * a)
  | .edgeLength => .many (g.nodeAngles.map fun a => r * a)

/-- Everything that is kept was computed for the radius `r`. -/
structure Kept (g : Grid) (r : ℝ) (s : Surf) : Prop where
  area : ∀ a, s.area = some a → a = g.areas.map fun x => x * r ^ 2
  size : ∀ a, s.size = some a → a = sizes g r
  pixMean : ∀ a, s.pixMean = some a → a = mean (sizes g r)
  pix : ∀ a, s.pix = some a → a = mean (sizes g r)
  total : ∀ a, s.total = some a → a = (g.areas.map fun x => x * r ^ 2).sum
  smallest : ∀ a, s.smallest = some a → a = least (sizes g r) * smallFac
  facePos : ∀ a, s.facePos = some a → a = g.faces.map (Vec.scale r)
  nodePos : ∀ a, s.nodePos = some a → a = g.nodes.map (Vec.scale r)
  faceDist : ∀ a, s.faceDist = some a → a = g.faceAngles.map fun t => r * t
  edgeLen : ∀ a, s.edgeLen = some a → a = g.nodeAngles.map fun t => r * t

theorem sizes_map (g : Grid) (r : ℝ) :
    ((g.areas.map fun x => x * r ^ 2).map fun x => Real.sqrt x) = sizes g r := by
  unfold sizes; rw [List.map_map]; rfl

theorem kept_compute (g : Grid) (r : ℝ) (s : Surf) (h : Kept g r s) (hr : s.radius = r) :
    Kept g r (computeFaceSize g s) := by
  unfold computeFaceSize
  dsimp only
  rw [hr, sizes_map]
  exact ⟨fun a e => by simpa using e.symm, fun a e => by simpa using e.symm, fun a e => by simpa using e.symm,
    h.pix, h.total, h.smallest, h.facePos, h.nodePos, h.faceDist, h.edgeLen⟩

theorem radius_compute (g : Grid) (s : Surf) : (computeFaceSize g s).radius = s.radius := rfl

theorem readArea_spec (g : Grid) (r : ℝ) (s : Surf) (h : Kept g r s) (hr : s.radius = r) :
    Kept g r (readArea g s).1 ∧ (readArea g s).1.radius = r ∧
      (readArea g s).2 = g.areas.map fun x => x * r ^ 2 := by
  unfold readArea
  split
  · next a e => exact ⟨h, hr, h.area a e⟩
  · exact ⟨kept_compute g r s h hr, hr, by rw [hr]⟩

theorem readSize_spec (g : Grid) (r : ℝ) (s : Surf) (h : Kept g r s) (hr : s.radius = r) :
    Kept g r (readSize g s).1 ∧ (readSize g s).1.radius = r ∧ (readSize g s).2 = sizes g r := by
  unfold readSize
  split
  · next a e => exact ⟨h, hr, h.size a e⟩
  · exact ⟨kept_compute g r s h hr, hr, by rw [hr, sizes_map]⟩

theorem readPixMean_spec (g : Grid) (r : ℝ) (s : Surf) (h : Kept g r s) (hr : s.radius = r) :
    Kept g r (readPixMean g s).1 ∧ (readPixMean g s).1.radius = r ∧ (readPixMean g s).2 = mean (sizes g r) := by
  unfold readPixMean
  split
  · next a e => exact ⟨h, hr, h.pixMean a e⟩
  · exact ⟨kept_compute g r s h hr, hr, by rw [hr, sizes_map]⟩

theorem read_spec (g : Grid) (r : ℝ) (s : Surf) (q : Query) (h : Kept g r s) (hr : s.radius = r) :
    Kept g r (read g s q).1 ∧ (read g s q).1.radius = r ∧ (read g s q).2 = truth g r q := by
  cases q with
  | faceArea =>
    obtain ⟨a, b, c⟩ := readArea_spec g r s h hr
    exact ⟨a, b, by simp only [read, truth, c]⟩
  | faceSize =>
    obtain ⟨a, b, c⟩ := readSize_spec g r s h hr
    exact ⟨a, b, by simp only [read, truth, c]⟩
  | pixMean =>
    obtain ⟨a, b, c⟩ := readPixMean_spec g r s h hr
    exact ⟨a, b, by simp only [read, truth, c, mean]⟩
  | pix =>
    simp only [read]
    split
    · next p e => exact ⟨h, hr, by rw [h.pix p e]; rfl⟩
    · obtain ⟨a, b, c⟩ := readPixMean_spec g r s h hr
      dsimp only
      exact ⟨⟨a.area, a.size, a.pixMean, fun x e => by rw [← c]; simpa using e.symm, a.total, a.smallest, a.facePos,
        a.nodePos, a.faceDist, a.edgeLen⟩, b, by rw [c]; rfl⟩
  | area =>
    simp only [read]
    split
    · next p e => exact ⟨h, hr, by rw [h.total p e]; rfl⟩
    · obtain ⟨a, b, c⟩ := readArea_spec g r s h hr
      dsimp only
      exact ⟨⟨a.area, a.size, a.pixMean, a.pix, fun x e => by rw [← c]; simpa using e.symm, a.smallest, a.facePos,
        a.nodePos, a.faceDist, a.edgeLen⟩, b, by rw [c]; rfl⟩
  | smallestLength =>
    simp only [read]
    split
    · next p e => exact ⟨h, hr, by rw [h.smallest p e]; rfl⟩
    · obtain ⟨a, b, c⟩ := readSize_spec g r s h hr
      dsimp only
      exact ⟨⟨a.area, a.size, a.pixMean, a.pix, a.total, fun x e => by rw [← c]; simpa using e.symm, a.facePos,
        a.nodePos, a.faceDist, a.edgeLen⟩, b, by rw [c]; rfl⟩
  | facePos =>
    simp only [read]
    split
    · next p e => exact ⟨h, hr, by rw [h.facePos p e]; rfl⟩
    · dsimp only
      rw [hr]
      exact ⟨⟨h.area, h.size, h.pixMean, h.pix, h.total, h.smallest, fun x e => by simpa using e.symm,
        h.nodePos, h.faceDist, h.edgeLen⟩, rfl, rfl⟩
  | nodePos =>
    simp only [read]
    split
    · next p e => exact ⟨h, hr, by rw [h.nodePos p e]; rfl⟩
    · dsimp only
      rw [hr]
      exact ⟨⟨h.area, h.size, h.pixMean, h.pix, h.total, h.smallest, h.facePos, fun x e => by simpa using e.symm,
        h.faceDist, h.edgeLen⟩, rfl, rfl⟩
  | faceDistance =>
    simp only [read]
    split
    · next p e => exact ⟨h, hr, by rw [h.faceDist p e]; rfl⟩
    · dsimp only
      rw [hr]
      exact ⟨⟨h.area, h.size, h.pixMean, h.pix, h.total, h.smallest, h.facePos, h.nodePos,
        fun x e => by simpa using e.symm, h.edgeLen⟩, rfl, rfl⟩
  | edgeLength =>
    simp only [read]
    split
    · next p e => exact ⟨h, hr, by rw [h.edgeLen p e]; rfl⟩
    · dsimp only
      rw [hr]
      exact ⟨⟨h.area, h.size, h.pixMean, h.pix, h.total, h.smallest, h.facePos, h.nodePos, h.faceDist,
        fun x e => by simpa using e.symm⟩, rfl, rfl⟩

theorem kept_fresh (g : Grid) (r r' : ℝ) : Kept g r' { radius := r } := by
  constructor <;> intro a e <;> simp at e

theorem reads_spec (g : Grid) (r : ℝ) (qs : List Query) (s : Surf) (h : Kept g r s) (hr : s.radius = r) :
    Kept g r (reads g s qs).1 ∧ (reads g s qs).1.radius = r ∧ (reads g s qs).2 = qs.map (truth g r) := by
  induction qs generalizing s with
  | nil => exact ⟨h, hr, rfl⟩
  | cons q qs ih =>
    obtain ⟨a, b, c⟩ := read_spec g r s q h hr
    obtain ⟨a', b', c'⟩ := ih (read g s q).1 a b
    unfold reads
    dsimp only
    exact ⟨a', b', by rw [c, c']; rfl⟩

/-- As long as the target is not replaced, every property is that of the sphere with the target's radius,
whichever properties are read, in whatever order and however often. -/
theorem C159_reads_partial (g : Grid) (r : ℝ) (qs : List Query) :
    (reads g { radius := r } qs).2 = qs.map (truth g r) :=
  (reads_spec g r qs _ (kept_fresh g r r) rfl).2.2

/-- A new target given before anything is read counts as well. -/
theorem C159_early_partial (g : Grid) (r r' : ℝ) (qs : List Query) :
    (reads g (setTarget r' { radius := r }) qs).2 = qs.map (truth g r') :=
  C159_reads_partial g r' qs

theorem stale (g : Grid) (r r' : ℝ) (s : Surf) (q : Query) (h : Kept g r s) (hr : s.radius = r) :
    (read g (setTarget r' (read g s q).1) q).2 = truth g r q := by
  have key := (read_spec g r (read g s q).1 q (read_spec g r s q h hr).1 (read_spec g r s q h hr).2.1).2.2
  rw [← key]
  have ha : ∀ t : Surf, (readArea g t).1.area = some (readArea g t).2 := by
    intro t; unfold readArea; split
    · next a e => exact e
    · rfl
  have hs : ∀ t : Surf, (readSize g t).1.size = some (readSize g t).2 := by
    intro t; unfold readSize; split
    · next a e => exact e
    · rfl
  have hm : ∀ t : Surf, (readPixMean g t).1.pixMean = some (readPixMean g t).2 := by
    intro t; unfold readPixMean; split
    · next a e => exact e
    · simp only [computeFaceSize]
  cases q with
  | faceArea =>
    have k : ∀ (t : Surf) a, t.area = some a → (readArea g t).2 = a := by
      intro t a e; unfold readArea; rw [e]
    simp only [read]
    rw [k _ _ (ha s), k (setTarget r' _) _ (ha s)]
  | faceSize =>
    have k : ∀ (t : Surf) a, t.size = some a → (readSize g t).2 = a := by
      intro t a e; unfold readSize; rw [e]
    simp only [read]
    rw [k _ _ (hs s), k (setTarget r' _) _ (hs s)]
  | pixMean =>
    have k : ∀ (t : Surf) a, t.pixMean = some a → (readPixMean g t).2 = a := by
      intro t a e; unfold readPixMean; rw [e]
    simp only [read]
    rw [k _ _ (hm s), k (setTarget r' _) _ (hm s)]
  | pix => cases e : s.pix <;> simp [read, setTarget, e]
  | area => cases e : s.total <;> simp [read, setTarget, e]
  | smallestLength => cases e : s.smallest <;> simp [read, setTarget, e]
  | facePos => cases e : s.facePos <;> simp [read, setTarget, e]
  | nodePos => cases e : s.nodePos <;> simp [read, setTarget, e]
  | faceDistance => cases e : s.faceDist <;> simp [read, setTarget, e]
  | edgeLength => cases e : s.edgeLen <;> simp [read, setTarget, e]

/-- The smallest length is 10⁻⁵ times the size of some face, and no face is smaller. -/
theorem C159_smallest_partial (g : Grid) (r : ℝ) (hg : g.areas ≠ []) (qs : List Query) :
    ∃ a ∈ g.areas, (∀ b ∈ g.areas, Real.sqrt (a * r ^ 2) ≤ Real.sqrt (b * r ^ 2)) ∧
      (read g (reads g { radius := r } qs).1 .smallestLength).2 = .one (Real.sqrt (a * r ^ 2) * 1e-5) := by
  have hl : ∀ l : List ℝ, l ≠ [] → least l ∈ l ∧ ∀ x ∈ l, least l ≤ x := by
    intro l
    induction l with
    | nil => intro h; exact absurd rfl h
    | cons a l ih =>
      intro _
      cases l with
      | nil => simp [least]
      | cons b l =>
        obtain ⟨h1, h2⟩ := ih (by simp)
        refine ⟨?_, ?_⟩
        · rcases min_choice a (least (b :: l)) with h | h
          · simp only [least, h]; simp
          · simp only [least, h]; exact List.mem_cons_of_mem _ h1
        · intro x hx
          rcases List.mem_cons.1 hx with rfl | hx
          · exact min_le_left _ _
          · exact (min_le_right _ _).trans (h2 x hx)
  have hs : sizes g r ≠ [] := by simpa [sizes] using hg
  obtain ⟨h1, h2⟩ := hl _ hs
  obtain ⟨a, ha, he⟩ := List.mem_map.1 h1
  refine ⟨a, ha, fun b hb => ?_, ?_⟩
  · rw [he]
    exact h2 _ (List.mem_map.2 ⟨b, hb, rfl⟩)
  · have hk := reads_spec g r qs _ (kept_fresh g r r) rfl
    have h3 := (read_spec g r _ .smallestLength hk.1 hk.2.1).2.2
    rw [h3, he]
    rfl

example : (⟨[4, 9], [], [], [], []⟩ : Grid).areas ≠ [] := by simp

/-- Whatever has been read once stays as it was for the old target: after any reads, a new target changes
nothing about the property read last. -/
theorem C159_stale_fails (g : Grid) (r r' : ℝ) (qs : List Query) (q : Query) :
    (read g (setTarget r' (reads g { radius := r } (qs ++ [q])).1) q).2 = truth g r q := by
  have e : ∀ (s : Surf), (reads g s (qs ++ [q])).1 = (read g (reads g s qs).1 q).1 := by
    induction qs with
    | nil => intro s; rfl
    | cons p qs ih => intro s; exact ih _
  rw [e]
  obtain ⟨a, b, _⟩ := reads_spec g r qs { radius := r } (kept_fresh g r r) rfl
  exact stale g r r' _ q a b

/-- Non-vacuity: the areas for the two targets differ. -/
example : truth ⟨[1], [], [], [], []⟩ 1 .faceArea ≠ truth ⟨[1], [], [], [], []⟩ 2 .faceArea := by
  simp only [truth, List.map_cons, List.map_nil]
  norm_num

/-- Areas of one body can then be combined with lengths of another: when the areas were read before the new
target and the edge lengths after it, the areas are those of the old body and the lengths those of the new
one. -/
theorem C159_mixed_fails (g : Grid) (r r' : ℝ) :
    (reads g (setTarget r' (reads g { radius := r } [.faceArea]).1) [.faceArea, .edgeLength]).2 =
      [truth g r .faceArea, truth g r' .edgeLength] := by
  simp [reads, read, readArea, computeFaceSize, setTarget, truth]

/-! ### C160 -/

theorem norm_scale (c : ℝ) (hc : 0 ≤ c) (v : Vec) : (v.scale c).norm = c * v.norm := by
  unfold Vec.norm Vec.scale
  dsimp only
  rw [show (c * v.x) ^ 2 + (c * v.y) ^ 2 + (c * v.z) ^ 2 = c ^ 2 * (v.x ^ 2 + v.y ^ 2 + v.z ^ 2) by ring,
    Real.sqrt_mul (by positivity), Real.sqrt_sq hc]

/-- A point on the sphere of radius `R` raised by `h` is the point in the same direction at the distance
`R + h` from the centre. -/
theorem C160_raised (u : Vec) (hu : u.norm = 1) (R h : ℝ) (hR : 0 < R) :
    toCartesian (u.scale R) h = u.scale (R + h) ∧ (0 ≤ R + h → (toCartesian (u.scale R) h).norm = R + h) := by
  have e : toCartesian (u.scale R) h = u.scale (R + h) := by
    unfold toCartesian
    rw [norm_scale R hR.le, hu]
    unfold Vec.scale
    simp only [Vec.mk.injEq]
    refine ⟨?_, ?_, ?_⟩ <;> field_simp
  exact ⟨e, fun h0 => by rw [e, norm_scale _ h0, hu, mul_one]⟩

/-- The points of the exported mesh are the same points, as long as the coordinates are those of the present
target. -/
theorem C160_export (g : Grid) (R : ℝ) (hR : 0 < R) (hu : ∀ u ∈ g.nodes, u.norm = 1) (hs : List ℝ) :
    ∃ ps, (read g { radius := R } .nodePos).2 = .points ps ∧
      List.zipWith (vtkPoint R) ps hs = List.zipWith toCartesian ps hs ∧
      List.zipWith toCartesian ps hs = List.zipWith (fun u h => u.scale (R + h)) g.nodes hs := by
  refine ⟨g.nodes.map (Vec.scale R), rfl, ?_, ?_⟩
  · generalize g.nodes = l at hu
    induction l generalizing hs with
    | nil => rfl
    | cons u l ih =>
      cases hs with
      | nil => rfl
      | cons h hs =>
        simp only [List.map_cons, List.zipWith_cons_cons, List.cons.injEq]
        refine ⟨?_, ih hs fun v hv => hu v (List.mem_cons_of_mem _ hv)⟩
        unfold vtkPoint toCartesian
        rw [norm_scale R hR.le, hu u (by simp), mul_one]
  · generalize g.nodes = l at hu
    induction l generalizing hs with
    | nil => rfl
    | cons u l ih =>
      cases hs with
      | nil => rfl
      | cons h hs =>
        simp only [List.map_cons, List.zipWith_cons_cons, List.cons.injEq]
        exact ⟨(C160_raised u (hu u (by simp)) R h hR).1, ih hs fun v hv => hu v (List.mem_cons_of_mem _ hv)⟩

/-- Non-vacuity: the north pole of the Moon raised by a kilometre. -/
example : (⟨0, 0, 1⟩ : Vec).norm = 1 ∧ toCartesian ((⟨0, 0, 1⟩ : Vec).scale 1737400) 1000 = ⟨0, 0, 1738400⟩ := by
  have h : (⟨0, 0, 1⟩ : Vec).norm = 1 := by unfold Vec.norm; norm_num
  refine ⟨h, ?_⟩
  rw [(C160_raised _ h 1737400 1000 (by norm_num)).1]
  unfold Vec.scale
  norm_num

end Verif.Geometry
