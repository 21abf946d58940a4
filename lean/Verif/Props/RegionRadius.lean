import Verif.Props.Region

/-! Property C261: does a region have the faces within the radius it reports? -/

namespace Verif.Region

/-- The region has every face of the mesh that lies within the radius it reports. -/
def Covers (m : Mesh) (dist : ℕ → ℝ) (l : Local) : Prop := ∀ f < m.nFace, dist f ≤ l.radius → f ∈ l.faces

/-- Regions taken out of one another, with the given radii one after the other. -/
noncomputable def nested (m : Mesh) (dist : ℕ → ℝ) : Local → List ℝ → Option Local
  | l, [] => some l
  | l, r :: rs => (extractSubregion m dist l r).bind fun l' => nested m dist l' rs

theorem radius_region {m : Mesh} {dist : ℕ → ℝ} {half : ℝ} {nearest : ℕ} {r : ℝ} {one : Bool} {l : Local}
    (h : extractRegion m dist half nearest r one = some l) : l.radius = r := by
  unfold extractRegion at h
  simp only at h
  split_ifs at h <;> cases h <;> rfl

theorem radius_subregion {m : Mesh} {dist : ℕ → ℝ} {l l' : Local} {r : ℝ} (h : extractSubregion m dist l r = some l') : l'.radius = r := by
  unfold extractSubregion at h
  simp only at h
  split_ifs at h <;> cases h <;> rfl

/-- What the steps from a region to a smaller one preserve. -/
structure Sound (m : Mesh) (dist : ℕ → ℝ) (l : Local) : Prop where
  covers : Covers m dist l
  inside : ∀ f ∈ l.faces, f < m.nFace
  buffer : ∀ f g, m.Touch f g → dist f ≤ l.radius → g ∈ l.faces

theorem sound_subregion {m : Mesh} (hm : m.Good) {dist : ℕ → ℝ} {l l' : Local} (hl : Sound m dist l) {r : ℝ} (hr : r ≤ l.radius)
    (h : extractSubregion m dist l r = some l') : Sound m dist l' ∧ l'.faces ⊆ l.faces := by
  have hrad := radius_subregion h
  unfold extractSubregion at h
  simp only at h
  split_ifs at h with h1 h2
  · cases h
    have hc : ∀ f ∈ l.faces.filter (fun f => dist f ≤ r), f < m.nFace := fun f hf => hl.inside f (Finset.mem_filter.mp hf).1
    have key : ∀ f g, m.Touch f g → dist f ≤ r → g ∈ withBuffer m (l.faces.filter fun f => dist f ≤ r) := fun f g ht hd =>
      (mem_withBuffer hm hc).mpr ⟨f, Finset.mem_filter.mpr ⟨hl.covers f ht.1 (hd.trans hr), hd⟩, ht⟩
    refine ⟨⟨?_, ?_, key⟩, ?_⟩
    · intro f hf hd
      obtain ⟨n, hn⟩ := hm.has_node f hf
      exact key f f ⟨hf, hf, n, hn, hn⟩ hd
    · intro f hf
      obtain ⟨_, _, ht⟩ := (mem_withBuffer hm hc).mp hf
      exact ht.2.1
    · intro g hg
      obtain ⟨f, hf, ht⟩ := (mem_withBuffer hm hc).mp hg
      exact hl.buffer f g ht ((Finset.mem_filter.mp hf).2.trans hr)
  · cases h
    exact ⟨⟨fun f hf hd => hl.covers f hf (hd.trans hr), hl.inside, fun f g ht hd => hl.buffer f g ht (hd.trans hr)⟩, fun _ h => h⟩

/-- However many regions are taken out of one another, as long as no radius is larger than the one before it, the last has every face within the radius it reports, reports
the last radius asked for, and has only faces that the first has. -/
theorem C261_shrinking_partial (m : Mesh) (hm : m.Good) (dist : ℕ → ℝ) (half : ℝ) (hhalf : ∀ f < m.nFace, dist f ≤ half) (nearest : ℕ)
    (hnear : nearest < m.nFace) (r : ℝ) (one : Bool) (l : Local) (h : extractRegion m dist half nearest r one = some l) (rs : List ℝ)
    (hrs : (r :: rs).Pairwise (· ≥ ·)) (l' : Local) (h' : nested m dist l rs = some l') :
    l'.radius = (r :: rs).getLast (by simp) ∧ (∀ f < m.nFace, dist f ≤ l'.radius → f ∈ l'.faces) ∧ l'.faces ⊆ l.faces := by
  obtain ⟨h1, h2, h3, h4⟩ := C67_region m hm dist half hhalf nearest hnear r one l h
  have hrad := radius_region h
  have hs : Sound m dist l := ⟨by rw [Covers, hrad]; exact h1, fun f hf => (h3 f hf).1, by rw [hrad]; exact h2⟩
  clear h h1 h2 h3 h4
  induction rs generalizing l r with
  | nil =>
    simp only [nested, Option.some.injEq] at h'
    subst h'
    exact ⟨by simpa using hrad, hs.covers, fun _ h => h⟩
  | cons a rs ih =>
    simp only [nested, Option.bind_eq_some_iff] at h'
    obtain ⟨l1, h1, h2⟩ := h'
    rw [List.pairwise_cons] at hrs
    have ha : a ≤ l.radius := by rw [hrad]; exact hrs.1 a (by simp)
    obtain ⟨hs1, hsub⟩ := sound_subregion hm hs ha h1
    obtain ⟨k1, k2, k3⟩ := ih a l1 hrs.2 h2 (radius_subregion h1) hs1
    exact ⟨by rw [k1]; simp, k2, k3.trans hsub⟩

/-- Asking a region for a subregion that is not smaller is not refused.  The result reports the larger radius, but has the faces of the region: of the faces within the
reported radius it lacks exactly those that touch no face within the radius of the region. -/
theorem C261_larger_fails (m : Mesh) (hm : m.Good) (dist : ℕ → ℝ) (half : ℝ) (hhalf : ∀ f < m.nFace, dist f ≤ half) (nearest : ℕ)
    (hnear : nearest < m.nFace) (r r' : ℝ) (hr : r ≤ r') (l : Local) (h : extractRegion m dist half nearest r false = some l) :
    ∃ l', extractSubregion m dist l r' = some l' ∧ l'.radius = r' ∧
      ∀ f < m.nFace, f ∉ l'.faces ↔ ∀ g, m.Touch g f → r < dist g := by
  have hrad := radius_region h
  obtain ⟨_, h2, _, h4⟩ := C67_region m hm dist half hhalf nearest hnear r false l h
  refine ⟨⟨l.faces, l.nodes, l.edges, r'⟩, ?_, rfl, fun f _ => ⟨?_, ?_⟩⟩
  · unfold extractSubregion
    rw [if_neg (by rw [hrad]; exact not_lt.mpr hr)]
  · intro hf g ht
    by_contra hc
    exact hf (h2 g f ht (not_lt.mp hc))
  · intro hf hmem
    obtain ⟨g, ht, hd | ⟨_, hd, _⟩⟩ := h4 f hmem
    · exact absurd (hf g ht) (not_lt.mpr hd)
    · cases hd

/-- After that a subregion with a radius in between has more faces than the region it is taken from: all faces that touch one of the region's faces within that radius. -/
theorem C261_growing_fails (m : Mesh) (hm : m.Good) (dist : ℕ → ℝ) (half : ℝ) (hhalf : ∀ f < m.nFace, dist f ≤ half) (nearest : ℕ)
    (hnear : nearest < m.nFace) (r r' r'' : ℝ) (hr : r ≤ r') (hr' : r'' < r') (l l' l'' : Local)
    (h : extractRegion m dist half nearest r false = some l) (h' : extractSubregion m dist l r' = some l')
    (h'' : extractSubregion m dist l' r'' = some l'') :
    ∀ f, f ∈ l''.faces ↔ ∃ g k, dist g ≤ r'' ∧ dist k ≤ r ∧ m.Touch k g ∧ m.Touch g f := by
  have hrad := radius_region h
  have hrad' := radius_subregion h'
  obtain ⟨_, h2, h3, h4⟩ := C67_region m hm dist half hhalf nearest hnear r false l h
  have hf : l'.faces = l.faces := by
    unfold extractSubregion at h'
    rw [if_neg (by rw [hrad]; exact not_lt.mpr hr)] at h'
    cases h'
    rfl
  unfold extractSubregion at h''
  rw [if_pos (by rw [hrad']; exact hr'), hf] at h''
  simp only at h''
  split_ifs at h'' with he
  cases h''
  have hc : ∀ f ∈ l.faces.filter (fun f => dist f ≤ r''), f < m.nFace := fun f hf => (h3 f (Finset.mem_filter.mp hf).1).1
  intro f
  simp only
  rw [mem_withBuffer hm hc]
  constructor
  · rintro ⟨g, hg, ht⟩
    rw [Finset.mem_filter] at hg
    obtain ⟨k, hk, hd | ⟨_, hd, _⟩⟩ := h4 g hg.1
    · exact ⟨g, k, hg.2, hd, hk, ht⟩
    · cases hd
  · rintro ⟨g, k, hg, hk, h5, h6⟩
    exact ⟨g, Finset.mem_filter.mpr ⟨h2 k g h5 hk, hg⟩, h6⟩

/-- A strip of four triangles, each with a side in common with the next. -/
def strip : Mesh where
  nFace := 4
  nNode := 6
  nEdge := 9
  faceNode := fun f => if f < 4 then [some f, some (f + 1), some (f + 2)] else []
  faceEdge := fun f => if f < 4 then [some (2 * f), some (2 * f + 1), some (2 * f + 2)] else []
  faceFace := fun f => if f < 4 then ((List.range 4).filter fun g => g = f + 1 ∨ f = g + 1).map some else []
  nodeFace := fun n => ((List.range 4).filter fun g => g ≤ n ∧ n ≤ g + 2).map some
  edgeFace := fun e => ((List.range 4).filter fun g => 2 * g ≤ e ∧ e ≤ 2 * g + 2).map some

theorem strip_node (f n : ℕ) : strip.HasNode f n ↔ f < 4 ∧ f ≤ n ∧ n ≤ f + 2 := by
  unfold Mesh.HasNode strip
  simp only
  split_ifs with h
  · simp; omega
  · simp; omega

theorem strip_good : strip.Good := by
  refine ⟨?_, ?_, ?_, ?_, ?_, ?_⟩
  · intro f _ n hn
    rw [strip_node] at hn
    simp [strip]
    omega
  · intro f n h
    simp [strip] at h
    rw [strip_node]
    simp [strip]
    omega
  · intro f g h
    simp only [strip] at h
    split_ifs at h with hf
    · simp at h
      refine ⟨h.1, max f g, ?_, ?_⟩ <;> rw [strip_node] <;> omega
    · simp at h
  · intro f e g h h'
    simp only [strip] at h h'
    split_ifs at h with hf
    · simp at h h'
      refine ⟨h'.1, max f g, ?_, ?_⟩ <;> rw [strip_node] <;> omega
    · simp at h
  · intro f _ n hn
    rw [strip_node] at hn
    simp only [strip]
    omega
  · intro f hf
    exact ⟨f, by rw [strip_node]; exact ⟨hf, by omega, by omega⟩⟩

theorem strip_touch (f g : ℕ) : strip.Touch f g ↔ f < 4 ∧ g < 4 ∧ f ≤ g + 2 ∧ g ≤ f + 2 := by
  unfold Mesh.Touch
  simp only [strip_node]
  constructor
  · rintro ⟨h1, h2, n, h3, h4⟩
    exact ⟨h1, h2, by omega, by omega⟩
  · rintro ⟨h1, h2, h3, h4⟩
    exact ⟨h1, h2, max f g, by omega, by omega⟩

theorem strip_dist : ∀ f < strip.nFace, (fun f : ℕ => (f : ℝ)) f ≤ 9 := by
  intro f hf
  have h : f < 4 := hf
  have : (f : ℝ) < 4 := by exact_mod_cast h
  simp only
  linarith

/-- On the strip, with distances 0, 1, 2 and 3: the region of radius 1/2 has the faces 0, 1 and 2.  Its subregion of radius 4 lacks face 3, which is at distance 3; the
subregion of radius 5/2 taken out of that has face 3. -/
example : ∃ l l' l'', extractRegion strip (fun f => (f : ℝ)) 9 0 0.5 false = some l ∧ extractSubregion strip (fun f => (f : ℝ)) l 4 = some l' ∧
    extractSubregion strip (fun f => (f : ℝ)) l' 2.5 = some l'' ∧ 3 ∉ l'.faces ∧ 3 ∈ l''.faces := by
  have hs : ∃ l, extractRegion strip (fun f => (f : ℝ)) 9 0 0.5 false = some l := by
    rw [← Option.isSome_iff_exists, ← Option.ne_none_iff_isSome, Ne, C67_absent]
    rintro ⟨_, _, h⟩
    have := h 0 (by simp [strip])
    norm_num at this
  obtain ⟨l, hl⟩ := hs
  obtain ⟨l', h', hr, hf⟩ := C261_larger_fails strip strip_good _ 9 strip_dist 0 (by simp [strip]) 0.5 4 (by norm_num) l hl
  have h0 : 0 ∈ l'.faces := by
    by_contra hc
    have := (hf 0 (by simp [strip])).mp hc 0 (by rw [strip_touch]; omega)
    norm_num at this
  have hs'' : ∃ l'', extractSubregion strip (fun f => (f : ℝ)) l' 2.5 = some l'' := by
    unfold extractSubregion
    rw [if_pos (by rw [hr]; norm_num)]
    simp only
    rw [if_neg]
    · exact ⟨_, rfl⟩
    · intro hc
      have : 0 ∈ l'.faces.filter (fun f : ℕ => (f : ℝ) ≤ 2.5) := Finset.mem_filter.mpr ⟨h0, by norm_num⟩
      rw [hc] at this
      simp at this
  obtain ⟨l'', h''⟩ := hs''
  refine ⟨l, l', l'', hl, h', h'', ?_, ?_⟩
  · rw [hf 3 (by simp [strip])]
    intro g hg
    rw [strip_touch] at hg
    have h1 : (1 : ℝ) ≤ g := by exact_mod_cast (by omega : 1 ≤ g)
    norm_num
    linarith
  · rw [C261_growing_fails strip strip_good _ 9 strip_dist 0 (by simp [strip]) 0.5 4 2.5 (by norm_num) (by norm_num) l l' l'' hl h' h'']
    exact ⟨2, 0, by norm_num, by norm_num, by rw [strip_touch]; omega, by rw [strip_touch]; omega⟩

/-- Three radii on the strip that meet the hypothesis of the first theorem. -/
example : ((3 : ℝ) :: [2, 1]).Pairwise (· ≥ ·) ∧ ∃ l l', extractRegion strip (fun f => (f : ℝ)) 9 0 3 false = some l ∧
    nested strip (fun f => (f : ℝ)) l [2, 1] = some l' := by
  refine ⟨by norm_num, ?_⟩
  have hs : ∃ l, extractRegion strip (fun f => (f : ℝ)) 9 0 3 false = some l := by
    rw [← Option.isSome_iff_exists, ← Option.ne_none_iff_isSome, Ne, C67_absent]
    rintro ⟨_, _, h⟩
    have := h 0 (by simp [strip])
    norm_num at this
  obtain ⟨l, hl⟩ := hs
  have sub : ∀ (l : Local) (r : ℝ), 0 ≤ r → 0 ∈ l.faces → ∃ l', extractSubregion strip (fun f => (f : ℝ)) l r = some l' := by
    intro l r h0 hm
    unfold extractSubregion
    simp only
    split_ifs with h1 h2
    · have : 0 ∈ l.faces.filter (fun f : ℕ => (f : ℝ) ≤ r) := Finset.mem_filter.mpr ⟨hm, by simpa using h0⟩
      rw [h2] at this
      simp at this
    · exact ⟨_, rfl⟩
    · exact ⟨_, rfl⟩
  have c0 := (C67_region strip strip_good _ 9 strip_dist 0 (by simp [strip]) 3 false l hl).1 0 (by simp [strip]) (by norm_num)
  obtain ⟨l1, h1⟩ := sub l 2 (by norm_num) c0
  have n1 : nested strip (fun f => (f : ℝ)) l [2] = some l1 := by simp [nested, h1]
  have c1 := (C261_shrinking_partial strip strip_good _ 9 strip_dist 0 (by simp [strip]) 3 false l hl [2] (by norm_num) l1 n1).2.1 0
    (by simp [strip]) (by rw [radius_subregion h1]; norm_num)
  obtain ⟨l2, h2⟩ := sub l1 1 (by norm_num) c1
  exact ⟨l, l2, hl, by simp [nested, h1, h2]⟩

end Verif.Region
