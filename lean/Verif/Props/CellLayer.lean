import Verif.Model.CellLayer
import Mathlib.Tactic.Linarith
import Mathlib.Tactic.NormNum
import Mathlib.Tactic.FinCases
import Mathlib.Tactic.Ring
import Mathlib.Data.Fintype.Basic
/-!
# C85: the displays draw every cell they are given
-/
namespace Wavemap
namespace CellDrawing

/-! ## Specification -/

/-- What a visual does with one of its layers. -/
inductive LayerOp where
  | setCells (cells : List DrawnCell)
  | setAlpha (alpha : ℚ)
  | setDimensions (width height depth : ℚ)
  | clear

/-- Its effect. `none` is a failed check, a write out of bounds or an endless loop. -/
def LayerOp.run (l : Layer) : LayerOp → Option Layer
  | .setCells cells => l.setCells cells
  | .setAlpha alpha => some (l.setAlpha alpha)
  | .setDimensions w h d => some (l.setCellDimensions w h d)
  | .clear => some l.clear

/-- The cells that are to be seen after some calls: those that were set last. -/
def LayerOp.shown (ops : List LayerOp) : List DrawnCell :=
  ops.foldl (fun cells o => match o with | .setCells cs => cs | .clear => [] | _ => cells) []

/-- The opacity that was set last. -/
def LayerOp.alpha (ops : List LayerOp) : ℚ := ops.foldl (fun a o => match o with | .setAlpha a => a | _ => a) 1

/-- The dimensions that were set last. -/
def LayerOp.size (ops : List LayerOp) : ℚ × ℚ × ℚ := ops.foldl (fun s o => match o with | .setDimensions w h d => (w, h, d) | _ => s) (1 / 10, 1 / 10, 1 / 10)

/-- What a renderable draws: the first vertices of its buffer. `none` if some of them were never written. -/
def Renderable.drawn (r : Renderable) : Option (List Vertex) := if r.vertexCount ≤ r.written.length then some (r.written.take r.vertexCount) else none

/-- What a layer draws. -/
def Layer.drawn (l : Layer) : Option (List Vertex) := (l.renderables.mapM Renderable.drawn).map List.flatten

/-- What is to be drawn for a cell: with a geometry shader a point, otherwise the corners of the triangles of a cube, all with the cell's position and color. -/
def drawing (geometryShader : Bool) (c : DrawnCell) : List Vertex :=
  if geometryShader then [{ position := c.center, corner := none, colour := c.colour }]
  else boxVertices.map fun corner => { position := c.center, corner := some corner, colour := c.colour }

/-- A point of a triangle. -/
def InTriangle (a b c p : Point 3) : Prop := ∃ u v w : ℚ, 0 ≤ u ∧ 0 ≤ v ∧ 0 ≤ w ∧ u + v + w = 1 ∧ ∀ i, p i = u * a i + v * b i + w * c i

/-- A point on the surface of the cube with edges of length one around the origin. -/
def OnCube (p : Point 3) : Prop := (∀ i, |p i| ≤ 1 / 2) ∧ ∃ i, |p i| = 1 / 2

/-- The triangles of a list of vertices. -/
def triangles : List (Point 3) → List (Point 3 × Point 3 × Point 3)
  | a :: b :: c :: rest => (a, b, c) :: triangles rest
  | _ => []

/-- Which of the two sides of a triangle is seen from the origin: the sign of the determinant of its corners. -/
def orientation (t : Point 3 × Point 3 × Point 3) : ℚ :=
  t.1 0 * (t.2.1 1 * t.2.2 2 - t.2.1 2 * t.2.2 1) - t.1 1 * (t.2.1 0 * t.2.2 2 - t.2.1 2 * t.2.2 0) + t.1 2 * (t.2.1 0 * t.2.2 1 - t.2.1 1 * t.2.2 0)

/-- The box covers a point. -/
def Covers (b : Box) (p : Point 3) : Prop := ∃ lo hi, b = some (lo, hi) ∧ ∀ i, lo i ≤ p i ∧ p i ≤ hi i

/-! ## Boxes -/

theorem merge_mergePoint (b a : Box) (p : Point 3) : Box.merge b (a.mergePoint p) = (Box.merge b a).mergePoint p := by
  rcases b with _ | ⟨lo, hi⟩ <;> rcases a with _ | ⟨lo', hi'⟩ <;> simp [Box.merge, Box.mergePoint, min_assoc, max_assoc]

theorem merge_none (b : Box) : Box.merge b none = b := by rcases b with _ | ⟨lo, hi⟩ <;> rfl

theorem merge_none_left (b : Box) : Box.merge none b = b := by rcases b with _ | ⟨lo, hi⟩ <;> rfl

/-- The smallest box around the cells. -/
def boxOf (cells : List DrawnCell) : Box := cells.foldl (fun b c => b.mergePoint c.center) none

theorem boxOf_snoc (cs : List DrawnCell) (c : DrawnCell) : boxOf (cs ++ [c]) = (boxOf cs).mergePoint c.center := by
  unfold boxOf; rw [List.foldl_append]; rfl

theorem boxOf_spec (cells : List DrawnCell) :
    match boxOf cells with
    | none => cells = []
    | some (lo, hi) => (∀ c ∈ cells, ∀ i, lo i ≤ c.center i ∧ c.center i ≤ hi i) ∧ ∀ i, (∃ c ∈ cells, c.center i = lo i) ∧ ∃ c ∈ cells, c.center i = hi i := by
  induction cells using List.reverseRecOn with
  | nil => rfl
  | append_singleton cs c ih =>
    rw [boxOf_snoc]
    rcases hb : boxOf cs with _ | ⟨lo, hi⟩
    · rw [hb] at ih
      subst ih
      simp [Box.mergePoint]
    · rw [hb] at ih
      obtain ⟨h1, h2⟩ := ih
      simp only [Box.mergePoint]
      refine ⟨fun c' hc' i => ?_, fun i => ⟨?_, ?_⟩⟩
      · rcases List.mem_append.1 hc' with h | h
        · exact ⟨(min_le_left _ _).trans (h1 c' h i).1, (h1 c' h i).2.trans (le_max_left _ _)⟩
        · rw [List.mem_singleton] at h; subst h
          exact ⟨min_le_right _ _, le_max_right _ _⟩
      · rcases min_choice (lo i) (c.center i) with h | h
        · obtain ⟨c', hc', e⟩ := (h2 i).1
          exact ⟨c', List.mem_append_left _ hc', by rw [h, e]⟩
        · exact ⟨c, by simp, by rw [h]⟩
      · rcases max_choice (hi i) (c.center i) with h | h
        · obtain ⟨c', hc', e⟩ := (h2 i).2
          exact ⟨c', List.mem_append_left _ hc', by rw [h, e]⟩
        · exact ⟨c, by simp, by rw [h]⟩

/-! ## Filling the buffers -/

theorem boxVertices_length : boxVertices.length = 36 := rfl

theorem cellVertices_length (g : Bool) (c : DrawnCell) : (cellVertices g c).length = verticesPerCell g := by
  cases g
  · simp [cellVertices, verticesPerCell, boxVertices_length]
  · rfl

theorem vpp_pos (g : Bool) : 0 < verticesPerCell g := by cases g <;> decide

theorem vpp_capacity (g : Bool) : verticesPerCell g ∣ bufferCapacity := by cases g <;> decide

/-- A renderable that is full. -/
structure Full (l : Layer) (r : Renderable) : Prop where
  count : r.vertexCount = r.written.length
  pos : 0 < r.vertexCount
  fits : r.written.length ≤ r.bufferSize
  cap : r.bufferSize ≤ bufferCapacity
  size : r.size = l.size
  alpha : r.alpha = l.alpha

/-- What is known when the cells `cs` have been written. -/
structure Filled (l : Layer) (cs : List DrawnCell) (s : Progress) : Prop where
  finished : ∀ r ∈ s.finished, Full l r
  count : ∀ r, s.current = some r → s.vertexCount = r.written.length
  size : ∀ r, s.current = some r → s.bufferSize = r.bufferSize ∧ r.bufferSize ≤ bufferCapacity ∧ r.size = l.size ∧ r.alpha = l.alpha
  multiple : ∀ r, s.current = some r → verticesPerCell l.geometryShader ∣ s.vertexCount ∧ verticesPerCell l.geometryShader ∣ s.bufferSize ∧ s.vertexCount ≤ s.bufferSize ∧ 0 < s.bufferSize
  written : (s.finished.map Renderable.written).flatten ++ (match s.current with | none => [] | some r => r.written) = cs.flatMap (cellVertices l.geometryShader)
  box : Box.merge s.box s.aabb = boxOf cs
  fresh : s.current = none → s.aabb = none

theorem writeVertices_eq (vs : List Vertex) (s : Progress) (r : Renderable) (hr : s.current = some r) (h : r.written.length + vs.length ≤ r.bufferSize) :
    writeVertices vs s = some { s with current := some { r with written := r.written ++ vs }, vertexCount := s.vertexCount + vs.length } := by
  induction vs generalizing s r with
  | nil =>
    simp only [writeVertices, List.append_nil, List.length_nil, Nat.add_zero]
    rw [← hr]
  | cons v vs ih =>
    rw [List.length_cons] at h
    unfold writeVertices
    rw [hr]
    dsimp only
    rw [if_pos (by omega), ih _ { r with written := r.written ++ [v] } rfl (by simp; omega)]
    simp only [List.append_assoc, List.singleton_append, List.length_cons]
    congr 2
    omega

theorem min_multiple {n k : Nat} (g : Bool) (h : 0 < k) (hn : n = k * verticesPerCell g) (hlt : n < 2 ^ 64) :
    verticesPerCell g ∣ min bufferCapacity (n % 2 ^ 64) ∧ 0 < min bufferCapacity (n % 2 ^ 64) := by
  rw [Nat.mod_eq_of_lt hlt]
  have hp := vpp_pos g
  have h0 : 0 < n := by rw [hn]; exact Nat.mul_pos h hp
  refine ⟨?_, lt_min (by decide) h0⟩
  rcases min_choice bufferCapacity n with e | e <;> rw [e]
  · exact vpp_capacity g
  · rw [hn]; exact Dvd.intro_left _ rfl

/-- Opening a buffer where one is needed. -/
theorem open_filled {l : Layer} {cs : List DrawnCell} {s : Progress} (h : Filled l cs s) {k : Nat} (hk : 0 < k) (hlt : k * verticesPerCell l.geometryShader < 2 ^ 64) :
    ∃ s', (if needsBuffer s then nextBuffer l k s else some s) = some s' ∧ Filled l cs s' ∧ needsBuffer s' = false ∧ s'.current.isSome = true := by
  obtain ⟨hm, hp⟩ := min_multiple l.geometryShader hk rfl hlt
  by_cases hn : needsBuffer s = true
  · rw [if_pos hn]
    unfold nextBuffer
    rcases hc : s.current with _ | r
    · refine ⟨_, rfl, ⟨h.finished, ?_, ?_, ?_, ?_, ?_, ?_⟩, ?_, rfl⟩
      · rintro r ⟨⟩; rfl
      · rintro r ⟨⟩; exact ⟨rfl, min_le_left _ _, rfl, rfl⟩
      · rintro r ⟨⟩; exact ⟨Nat.dvd_zero _, hm, Nat.zero_le _, hp⟩
      · have := h.written; rw [hc] at this; exact this
      · have := h.box
        rw [h.fresh hc] at this
        exact this
      · rintro ⟨⟩
      · simp [needsBuffer]; omega
    · obtain ⟨a, b, c, d⟩ := h.multiple r hc
      have hcount := h.count r hc
      obtain ⟨e1, e2, e3, e4⟩ := h.size r hc
      have hfull : s.vertexCount = s.bufferSize := by
        unfold needsBuffer at hn
        rw [hc] at hn
        simp only [Option.isNone_some, Bool.false_or, decide_eq_true_eq] at hn
        omega
      dsimp only
      rw [if_neg (not_not.2 hfull)]
      refine ⟨_, rfl, ⟨?_, ?_, ?_, ?_, ?_, ?_, ?_⟩, ?_, rfl⟩
      · intro r' hr'
        rcases List.mem_append.1 hr' with h' | h'
        · exact h.finished r' h'
        · rw [List.mem_singleton] at h'; subst h'
          exact ⟨by dsimp only; omega, by dsimp only; omega, by dsimp only; omega, e2, e3, e4⟩
      · rintro r ⟨⟩; rfl
      · rintro r ⟨⟩; exact ⟨rfl, min_le_left _ _, rfl, rfl⟩
      · rintro r ⟨⟩; exact ⟨Nat.dvd_zero _, hm, Nat.zero_le _, hp⟩
      · have := h.written
        rw [hc] at this
        simp only [List.map_append, List.map_cons, List.map_nil, List.flatten_append, List.flatten_cons, List.flatten_nil, List.append_nil]
        simp only [Layer.createRenderable, List.append_nil]
        exact this
      · dsimp only; rw [merge_none]; exact h.box
      · rintro ⟨⟩
      · simp [needsBuffer]; omega
  · rw [if_neg hn]
    refine ⟨s, rfl, h, by simpa using hn, ?_⟩
    unfold needsBuffer at hn
    rcases hc : s.current with _ | r
    · rw [hc] at hn; simp at hn
    · rfl

theorem fill_filled {l : Layer} (cells : List DrawnCell) {cs : List DrawnCell} {s : Progress} (h : Filled l cs s)
    (hlt : cells.length * verticesPerCell l.geometryShader < 2 ^ 64) (hs : cs ≠ [] → ∃ r, s.current = some r ∧ 0 < r.written.length) :
    ∃ s', fill l cells s = some s' ∧ Filled l (cs ++ cells) s' ∧ (cs ++ cells ≠ [] → ∃ r, s'.current = some r ∧ 0 < r.written.length) := by
  induction cells generalizing cs s with
  | nil => exact ⟨s, rfl, by rwa [List.append_nil], by rwa [List.append_nil]⟩
  | cons c cells ih =>
    obtain ⟨s1, e1, h1, n1, c1⟩ := open_filled h (k := (c :: cells).length) (by simp) hlt
    obtain ⟨r, hr⟩ := Option.isSome_iff_exists.1 c1
    obtain ⟨a, b, d, e⟩ := h1.multiple r hr
    have hcount := h1.count r hr
    obtain ⟨f1, f2, f3, f4⟩ := h1.size r hr
    have hlen := cellVertices_length l.geometryShader c
    have hpos := vpp_pos l.geometryShader
    have hlt1 : s1.vertexCount < s1.bufferSize := by
      unfold needsBuffer at n1
      simp only [Bool.or_eq_false_iff, decide_eq_false_iff_not] at n1
      omega
    have hroom : s1.vertexCount + verticesPerCell l.geometryShader ≤ s1.bufferSize := by
      obtain ⟨x, hx⟩ := a
      obtain ⟨y, hy⟩ := b
      rw [hx, hy] at hlt1 ⊢
      have hxy : x < y := Nat.lt_of_mul_lt_mul_left hlt1
      calc verticesPerCell l.geometryShader * x + verticesPerCell l.geometryShader = verticesPerCell l.geometryShader * (x + 1) := by ring
        _ ≤ verticesPerCell l.geometryShader * y := Nat.mul_le_mul_left _ hxy
    have hw := writeVertices_eq (cellVertices l.geometryShader c) { s1 with aabb := s1.aabb.mergePoint c.center } r hr (by rw [hlen]; omega)
    simp only [fill]
    rw [e1]
    simp only [Option.bind_some]
    rw [n1]
    simp only [Bool.false_eq_true, if_false]
    rw [hw]
    simp only [Option.bind_some]
    rw [show cs ++ c :: cells = (cs ++ [c]) ++ cells by simp]
    refine ih ⟨h1.finished, ?_, ?_, ?_, ?_, ?_, ?_⟩ ?_ ?_
    · rintro r' ⟨⟩
      simp only [List.length_append]
      omega
    · rintro r' ⟨⟩; exact ⟨f1, f2, f3, f4⟩
    · rintro r' ⟨⟩
      dsimp only
      rw [hlen]
      exact ⟨Nat.dvd_add a (dvd_refl _), b, hroom, e⟩
    · have := h1.written
      rw [hr] at this
      dsimp only at this ⊢
      rw [List.flatMap_append, ← this]
      simp
    · dsimp only
      rw [merge_mergePoint, h1.box, boxOf_snoc]
    · rintro ⟨⟩
    · rw [List.length_cons, Nat.add_mul] at hlt
      omega
    · intro _
      refine ⟨_, rfl, ?_⟩
      simp only [List.length_append]
      omega

/-- What is known about a layer that shows the cells `cs`. -/
structure Shows (l : Layer) (cs : List DrawnCell) : Prop where
  full : ∀ r ∈ l.renderables, Full l r
  written : (l.renderables.map Renderable.written).flatten = cs.flatMap (cellVertices l.geometryShader)
  box : l.box = boxOf cs
  radius : l.radiusSquared = l.box.radiusSquared
  empty : l.renderables = [] → cs = []

theorem Shows.cleared (l : Layer) : Shows l.clear [] :=
  ⟨(fun r hr => by cases hr), rfl, rfl, rfl, fun _ => rfl⟩

theorem setCells_shows {l : Layer} {cs : List DrawnCell} (h : Shows l cs) (cells : List DrawnCell) (hlt : cells.length * verticesPerCell l.geometryShader < 2 ^ 64) :
    ∃ l', l.setCells cells = some l' ∧ Shows l' cells ∧ l'.geometryShader = l.geometryShader ∧ l'.size = l.size ∧ l'.alpha = l.alpha := by
  unfold Layer.setCells
  -- the layer after clearing
  obtain ⟨l1, hl1, s1, g1, z1, a1⟩ : ∃ l1, (if l.renderables = [] then l else l.clear) = l1 ∧ Shows l1 [] ∧ l1.geometryShader = l.geometryShader ∧ l1.size = l.size ∧ l1.alpha = l.alpha := by
    refine ⟨_, rfl, ?_⟩
    split
    · next he => have := h.empty he; subst this; exact ⟨h, rfl, rfl, rfl⟩
    · exact ⟨Shows.cleared l, rfl, rfl, rfl⟩
  rw [hl1]
  dsimp only
  by_cases hc : cells = []
  · rw [if_pos hc]
    subst hc
    exact ⟨l1, rfl, s1, g1, z1, a1⟩
  · rw [if_neg hc]
    rw [← g1] at hlt
    obtain ⟨s, e, hf, hs⟩ := fill_filled (l := l1) cells (cs := []) (s := ⟨[], none, 0, 0, none, none⟩)
      ⟨(fun r hr => by cases hr), (fun r hr => by cases hr), (fun r hr => by cases hr), (fun r hr => by cases hr), rfl, rfl, fun _ => rfl⟩ hlt (fun h => absurd rfl h)
    rw [List.nil_append] at hf hs
    obtain ⟨r, hr, hpos⟩ := hs hc
    rw [e]
    simp only [Option.bind_eq_bind, Option.bind_some, hr]
    have hcount := hf.count r hr
    obtain ⟨f1, f2, f3, f4⟩ := hf.size r hr
    obtain ⟨-, -, d, -⟩ := hf.multiple r hr
    rw [if_neg (by omega)]
    have hshrink : shrinkRenderables (s.finished ++ [{ r with vertexCount := s.vertexCount, box := s.aabb }]) =
        s.finished ++ [{ r with vertexCount := s.vertexCount, box := s.aabb }] := by
      unfold shrinkRenderables
      rw [List.reverse_append, List.reverse_singleton, List.singleton_append, List.dropWhile_cons]
      have : (s.vertexCount == 0) = false := by simpa using (by omega : s.vertexCount ≠ 0)
      simp only [this, Bool.false_eq_true, if_false]
      simp
    rw [hshrink]
    refine ⟨_, rfl, ⟨?_, ?_, hf.box, rfl, fun he => absurd he (by simp)⟩, g1, z1, a1⟩
    · intro r' hr'
      rcases List.mem_append.1 hr' with h' | h'
      · exact ⟨(hf.finished r' h').count, (hf.finished r' h').pos, (hf.finished r' h').fits, (hf.finished r' h').cap, (hf.finished r' h').size, (hf.finished r' h').alpha⟩
      · rw [List.mem_singleton] at h'; subst h'
        exact ⟨hcount, by dsimp only; omega, by dsimp only; omega, f2, f3, f4⟩
    · have := hf.written
      rw [hr] at this
      dsimp only at this ⊢
      rw [← this]
      simp

/-! ## C85 -/

/-- The number of cells that can be handed over is limited by memory: the number of their vertices fits 64 bits. -/
def LayerOp.Fits : LayerOp → Prop
  | .setCells cells => cells.length * 36 < 2 ^ 64
  | _ => True

theorem run_shows (g : Bool) (ops : List LayerOp) (hops : ∀ o ∈ ops, o.Fits) :
    ∃ l, ops.foldlM LayerOp.run { geometryShader := g } = some l ∧ Shows l (LayerOp.shown ops) ∧ l.geometryShader = g ∧ l.size = LayerOp.size ops ∧ l.alpha = LayerOp.alpha ops := by
  induction ops using List.reverseRecOn with
  | nil => exact ⟨_, rfl, ⟨(fun r hr => by cases hr), rfl, rfl, rfl, fun _ => rfl⟩, rfl, rfl, rfl⟩
  | append_singleton ops o ih =>
    obtain ⟨l, e, h, hg, hz, ha⟩ := ih fun o ho => hops o (List.mem_append_left _ ho)
    have ho := hops o (by simp)
    rw [List.foldlM_append, e]
    have es : LayerOp.shown (ops ++ [o]) = (match (generalizing := false) o with | .setCells cs => cs | .clear => [] | _ => LayerOp.shown ops) := by
      unfold LayerOp.shown; rw [List.foldl_append]; cases o <;> rfl
    have ea : LayerOp.alpha (ops ++ [o]) = (match (generalizing := false) o with | .setAlpha a => a | _ => LayerOp.alpha ops) := by
      unfold LayerOp.alpha; rw [List.foldl_append]; cases o <;> rfl
    have ez : LayerOp.size (ops ++ [o]) = (match (generalizing := false) o with | .setDimensions w h d => (w, h, d) | _ => LayerOp.size ops) := by
      unfold LayerOp.size; rw [List.foldl_append]; cases o <;> rfl
    rw [es, ea, ez]
    simp only [Option.bind_eq_bind, Option.bind_some, List.foldlM_cons, List.foldlM_nil]
    cases o with
    | setCells cells =>
      have hlt : cells.length * verticesPerCell l.geometryShader < 2 ^ 64 := by
        have h1 : verticesPerCell l.geometryShader ≤ 36 := by cases l.geometryShader <;> decide
        have h2 := Nat.mul_le_mul_left cells.length h1
        exact lt_of_le_of_lt h2 ho
      obtain ⟨l', e', h', g', z', a'⟩ := setCells_shows h cells hlt
      refine ⟨l', by simp [LayerOp.run, e'], h', by rw [g', hg], by rw [z', hz], by rw [a', ha]⟩
    | setAlpha a =>
      refine ⟨_, rfl, ⟨?_, ?_, h.box, h.radius, ?_⟩, hg, hz, rfl⟩
      · intro r hr
        obtain ⟨r', hr', rfl⟩ := List.mem_map.1 hr
        exact ⟨(h.full r' hr').count, (h.full r' hr').pos, (h.full r' hr').fits, (h.full r' hr').cap, (h.full r' hr').size, rfl⟩
      · have := h.written
        simp only [Layer.setAlpha, List.map_map]
        exact this
      · intro he; exact h.empty (List.map_eq_nil_iff.1 he)
    | setDimensions w h' d =>
      refine ⟨_, rfl, ⟨?_, ?_, h.box, h.radius, ?_⟩, hg, rfl, ha⟩
      · intro r hr
        obtain ⟨r', hr', rfl⟩ := List.mem_map.1 hr
        exact ⟨(h.full r' hr').count, (h.full r' hr').pos, (h.full r' hr').fits, (h.full r' hr').cap, rfl, (h.full r' hr').alpha⟩
      · have := h.written
        simp only [Layer.setCellDimensions, List.map_map]
        exact this
      · intro he; exact h.empty (List.map_eq_nil_iff.1 he)
    | clear => exact ⟨_, rfl, Shows.cleared l, hg, hz, ha⟩

theorem mapM_drawn {l : Layer} {rs : List Renderable} (h : ∀ r ∈ rs, Full l r) : rs.mapM Renderable.drawn = some (rs.map Renderable.written) := by
  induction rs with
  | nil => rfl
  | cons r rs ih =>
    have hr := h r (by simp)
    have : r.drawn = some r.written := by
      unfold Renderable.drawn
      rw [if_pos hr.count.le, hr.count, List.take_length]
    rw [List.mapM_cons, this, ih fun r' hr' => h r' (List.mem_cons_of_mem _ hr')]
    rfl

theorem inTriangle_of {a0 a1 a2 b0 b1 b2 c0 c1 c2 u v w : ℚ} {p : Point 3} (hu : 0 ≤ u) (hv : 0 ≤ v) (hw : 0 ≤ w) (hs : u + v + w = 1)
    (h0 : p 0 = u * a0 + v * b0 + w * c0) (h1 : p 1 = u * a1 + v * b1 + w * c1) (h2 : p 2 = u * a2 + v * b2 + w * c2) :
    InTriangle ![a0, a1, a2] ![b0, b1, b2] ![c0, c1, c2] p :=
  ⟨u, v, w, hu, hv, hw, hs, fun i => by fin_cases i; exacts [h0, h1, h2]⟩

/-- The surface of the cube is made of triangles. -/
theorem cube_covered (p : Point 3) (h : OnCube p) : ∃ t ∈ triangles boxVertices, InTriangle t.1 t.2.1 t.2.2 p := by
  obtain ⟨hb, i, hi⟩ := h
  obtain ⟨l0, r0⟩ := abs_le.1 (hb 0)
  obtain ⟨l1, r1⟩ := abs_le.1 (hb 1)
  obtain ⟨l2, r2⟩ := abs_le.1 (hb 2)
  have hi' : p i = 1 / 2 ∨ p i = -(1 / 2) := by
    rcases abs_choice (p i) with e | e <;> rw [e] at hi
    · exact Or.inl hi
    · exact Or.inr (by linarith)
  fin_cases i
  · rcases hi' with e | e
    all_goals simp only [Fin.reduceFinMk, Fin.zero_eta, Fin.mk_one] at e
    · by_cases hd : 0 ≤ 1 - (1 / 2 - p 2) - (1 / 2 - p 1)
      · exact ⟨(![1 / 2, 1 / 2, 1 / 2], ![1 / 2, 1 / 2, -(1 / 2)], ![1 / 2, -(1 / 2), 1 / 2]), by decide +kernel, inTriangle_of (u := 1 - (1 / 2 - p 2) - (1 / 2 - p 1)) (v := 1 / 2 - p 2) (w := 1 / 2 - p 1) (by linarith) (by linarith) (by linarith) (by ring) (by linarith) (by linarith) (by linarith)⟩
      · exact ⟨(![1 / 2, 1 / 2, -(1 / 2)], ![1 / 2, -(1 / 2), -(1 / 2)], ![1 / 2, -(1 / 2), 1 / 2]), by decide +kernel, inTriangle_of (u := 1 / 2 + p 1) (v := 1 - (1 / 2 + p 1) - (1 / 2 + p 2)) (w := 1 / 2 + p 2) (by linarith) (by linarith) (by linarith) (by ring) (by linarith) (by linarith) (by linarith)⟩
    · by_cases hd : 0 ≤ 1 - (1 / 2 - p 1) - (1 / 2 - p 2)
      · exact ⟨(![-(1 / 2), 1 / 2, 1 / 2], ![-(1 / 2), -(1 / 2), 1 / 2], ![-(1 / 2), 1 / 2, -(1 / 2)]), by decide +kernel, inTriangle_of (u := 1 - (1 / 2 - p 1) - (1 / 2 - p 2)) (v := 1 / 2 - p 1) (w := 1 / 2 - p 2) (by linarith) (by linarith) (by linarith) (by ring) (by linarith) (by linarith) (by linarith)⟩
      · exact ⟨(![-(1 / 2), 1 / 2, -(1 / 2)], ![-(1 / 2), -(1 / 2), 1 / 2], ![-(1 / 2), -(1 / 2), -(1 / 2)]), by decide +kernel, inTriangle_of (u := 1 / 2 + p 1) (v := 1 / 2 + p 2) (w := 1 - (1 / 2 + p 1) - (1 / 2 + p 2)) (by linarith) (by linarith) (by linarith) (by ring) (by linarith) (by linarith) (by linarith)⟩
  · rcases hi' with e | e
    all_goals simp only [Fin.reduceFinMk, Fin.zero_eta, Fin.mk_one] at e
    · by_cases hd : 0 ≤ 1 - (1 / 2 + p 0) - (1 / 2 + p 2)
      · exact ⟨(![-(1 / 2), 1 / 2, -(1 / 2)], ![1 / 2, 1 / 2, -(1 / 2)], ![-(1 / 2), 1 / 2, 1 / 2]), by decide +kernel, inTriangle_of (u := 1 - (1 / 2 + p 0) - (1 / 2 + p 2)) (v := 1 / 2 + p 0) (w := 1 / 2 + p 2) (by linarith) (by linarith) (by linarith) (by ring) (by linarith) (by linarith) (by linarith)⟩
      · exact ⟨(![1 / 2, 1 / 2, -(1 / 2)], ![1 / 2, 1 / 2, 1 / 2], ![-(1 / 2), 1 / 2, 1 / 2]), by decide +kernel, inTriangle_of (u := 1 / 2 - p 2) (v := 1 - (1 / 2 - p 2) - (1 / 2 - p 0)) (w := 1 / 2 - p 0) (by linarith) (by linarith) (by linarith) (by ring) (by linarith) (by linarith) (by linarith)⟩
    · by_cases hd : 0 ≤ 1 - (1 / 2 + p 2) - (1 / 2 + p 0)
      · exact ⟨(![-(1 / 2), -(1 / 2), -(1 / 2)], ![-(1 / 2), -(1 / 2), 1 / 2], ![1 / 2, -(1 / 2), -(1 / 2)]), by decide +kernel, inTriangle_of (u := 1 - (1 / 2 + p 2) - (1 / 2 + p 0)) (v := 1 / 2 + p 2) (w := 1 / 2 + p 0) (by linarith) (by linarith) (by linarith) (by ring) (by linarith) (by linarith) (by linarith)⟩
      · exact ⟨(![1 / 2, -(1 / 2), -(1 / 2)], ![-(1 / 2), -(1 / 2), 1 / 2], ![1 / 2, -(1 / 2), 1 / 2]), by decide +kernel, inTriangle_of (u := 1 / 2 - p 2) (v := 1 / 2 - p 0) (w := 1 - (1 / 2 - p 2) - (1 / 2 - p 0)) (by linarith) (by linarith) (by linarith) (by ring) (by linarith) (by linarith) (by linarith)⟩
  · rcases hi' with e | e
    all_goals simp only [Fin.reduceFinMk, Fin.zero_eta, Fin.mk_one] at e
    · by_cases hd : 0 ≤ 1 - (1 / 2 + p 0) - (1 / 2 - p 1)
      · exact ⟨(![-(1 / 2), 1 / 2, 1 / 2], ![1 / 2, 1 / 2, 1 / 2], ![-(1 / 2), -(1 / 2), 1 / 2]), by decide +kernel, inTriangle_of (u := 1 - (1 / 2 + p 0) - (1 / 2 - p 1)) (v := 1 / 2 + p 0) (w := 1 / 2 - p 1) (by linarith) (by linarith) (by linarith) (by ring) (by linarith) (by linarith) (by linarith)⟩
      · exact ⟨(![1 / 2, 1 / 2, 1 / 2], ![1 / 2, -(1 / 2), 1 / 2], ![-(1 / 2), -(1 / 2), 1 / 2]), by decide +kernel, inTriangle_of (u := 1 / 2 + p 1) (v := 1 - (1 / 2 + p 1) - (1 / 2 - p 0)) (w := 1 / 2 - p 0) (by linarith) (by linarith) (by linarith) (by ring) (by linarith) (by linarith) (by linarith)⟩
    · by_cases hd : 0 ≤ 1 - (1 / 2 - p 1) - (1 / 2 + p 0)
      · exact ⟨(![-(1 / 2), 1 / 2, -(1 / 2)], ![-(1 / 2), -(1 / 2), -(1 / 2)], ![1 / 2, 1 / 2, -(1 / 2)]), by decide +kernel, inTriangle_of (u := 1 - (1 / 2 - p 1) - (1 / 2 + p 0)) (v := 1 / 2 - p 1) (w := 1 / 2 + p 0) (by linarith) (by linarith) (by linarith) (by ring) (by linarith) (by linarith) (by linarith)⟩
      · exact ⟨(![1 / 2, 1 / 2, -(1 / 2)], ![-(1 / 2), -(1 / 2), -(1 / 2)], ![1 / 2, -(1 / 2), -(1 / 2)]), by decide +kernel, inTriangle_of (u := 1 / 2 + p 1) (v := 1 / 2 - p 0) (w := 1 - (1 / 2 + p 1) - (1 / 2 - p 0)) (by linarith) (by linarith) (by linarith) (by ring) (by linarith) (by linarith) (by linarith)⟩

/-- A triangle in a face of the cube is part of its surface. -/
theorem onCube_of_face {a b c p : Point 3} (ha : ∀ i, |a i| ≤ 1 / 2) (hb : ∀ i, |b i| ≤ 1 / 2) (hc : ∀ i, |c i| ≤ 1 / 2) {i : Fin 3} (hab : a i = b i) (hac : a i = c i)
    (hi : |a i| = 1 / 2) (h : InTriangle a b c p) : OnCube p := by
  obtain ⟨u, v, w, hu, hv, hw, hs, hp⟩ := h
  refine ⟨fun j => ?_, i, ?_⟩
  · obtain ⟨a1, a2⟩ := abs_le.1 (ha j)
    obtain ⟨b1, b2⟩ := abs_le.1 (hb j)
    obtain ⟨c1, c2⟩ := abs_le.1 (hc j)
    rw [hp j, abs_le]
    constructor <;> nlinarith
  · rw [hp i, ← hab, ← hac, ← hi, ← add_mul, ← add_mul, hs, one_mul]

end CellDrawing

open CellDrawing

/-- C85: after every sequence of calls, for lists of cells of any length, no check has failed and nothing has been written out of bounds; the layer draws exactly the cells that were set
last, each of them once and in order, with its position and color; and every vertex buffer has the dimensions and the opacity that were set last. -/
theorem C85_drawn (geometryShader : Bool) (ops : List LayerOp) (hops : ∀ o ∈ ops, o.Fits) :
    ∃ l, ops.foldlM LayerOp.run { geometryShader := geometryShader } = some l ∧ l.drawn = some ((LayerOp.shown ops).flatMap (drawing geometryShader)) ∧
      ∀ r ∈ l.renderables, r.size = LayerOp.size ops ∧ r.alpha = LayerOp.alpha ops := by
  obtain ⟨l, e, h, hg, hz, ha⟩ := run_shows geometryShader ops hops
  refine ⟨l, e, ?_, fun r hr => ⟨by rw [(h.full r hr).size, hz], by rw [(h.full r hr).alpha, ha]⟩⟩
  unfold Layer.drawn
  rw [mapM_drawn h.full, Option.map_some, h.written, hg]
  rfl

/-- The hypothesis is met by sequences of calls in which the cells need any number of buffers; what is drawn changes with each call. -/
example (n : Nat) (hn : n * 36 < 2 ^ 64) :
    ∃ ops : List LayerOp, (∀ o ∈ ops, o.Fits) ∧ ((LayerOp.shown ops).flatMap (drawing false)).length = n * 36 ∧ LayerOp.alpha ops = 1 / 2 := by
  refine ⟨[.setCells [⟨![1, 2, 3], .flat 0⟩], .setCells (List.replicate n ⟨![0, 0, 0], .flat 0⟩), .setAlpha (1 / 2)], ?_, ?_, rfl⟩
  · intro o ho
    simp only [List.mem_cons, List.not_mem_nil, or_false] at ho
    rcases ho with rfl | rfl | rfl
    · simp [LayerOp.Fits]
    · simpa only [LayerOp.Fits, List.length_replicate] using hn
    · trivial
  · simp [LayerOp.shown, List.length_flatMap, drawing, boxVertices_length]

/-- C85: no buffer is larger than 368640 vertices, none is empty, and a layer without cells has none. -/
theorem C85_buffers (geometryShader : Bool) (ops : List LayerOp) (hops : ∀ o ∈ ops, o.Fits) :
    ∃ l, ops.foldlM LayerOp.run { geometryShader := geometryShader } = some l ∧ (∀ r ∈ l.renderables, 0 < r.vertexCount ∧ r.vertexCount ≤ r.bufferSize ∧ r.bufferSize ≤ 368640) ∧
      (l.renderables = [] ↔ LayerOp.shown ops = []) := by
  obtain ⟨l, e, h, hg, -, -⟩ := run_shows geometryShader ops hops
  refine ⟨l, e, fun r hr => ⟨(h.full r hr).pos, by rw [(h.full r hr).count]; exact (h.full r hr).fits, (h.full r hr).cap⟩, h.empty, fun hs => ?_⟩
  have hw := h.written
  rw [hs, List.flatMap_nil] at hw
  by_contra hne
  obtain ⟨r, hr⟩ := List.exists_mem_of_ne_nil _ hne
  have hp := (h.full r hr).pos
  rw [(h.full r hr).count] at hp
  have := List.flatten_eq_nil_iff.1 hw r.written (List.mem_map_of_mem hr)
  rw [this] at hp
  exact absurd hp (by decide)

/-- C85: the layer's bounding box covers the centres of all cells it shows and is the smallest such box; without cells it is null. -/
theorem C85_box_partial (geometryShader : Bool) (ops : List LayerOp) (hops : ∀ o ∈ ops, o.Fits) :
    ∃ l, ops.foldlM LayerOp.run { geometryShader := geometryShader } = some l ∧ (l.box = none ↔ LayerOp.shown ops = []) ∧
      (∀ c ∈ LayerOp.shown ops, Covers l.box c.center) ∧
      ∀ lo hi, l.box = some (lo, hi) → ∀ i, (∃ c ∈ LayerOp.shown ops, c.center i = lo i) ∧ ∃ c ∈ LayerOp.shown ops, c.center i = hi i := by
  obtain ⟨l, e, h, -, -, -⟩ := run_shows geometryShader ops hops
  have hb := boxOf_spec (LayerOp.shown ops)
  refine ⟨l, e, ?_, fun c hc => ?_, fun lo hi hl => ?_⟩
  · rw [h.box]
    rcases hx : boxOf (LayerOp.shown ops) with _ | ⟨lo, hi⟩
    · rw [hx] at hb; exact ⟨fun _ => hb, fun _ => rfl⟩
    · refine ⟨(fun h' => by cases h'), fun hs => ?_⟩
      rw [hs] at hx; cases hx
  · unfold Covers
    rw [h.box]
    rcases hx : boxOf (LayerOp.shown ops) with _ | ⟨lo, hi⟩
    · rw [hx] at hb; rw [hb] at hc; cases hc
    · rw [hx] at hb; exact ⟨lo, hi, rfl, hb.1 c hc⟩
  · rw [h.box] at hl
    rw [hl] at hb
    exact hb.2

/-- C85, bounding radius: it reaches all cells whose centres have no negative coordinates. -/
theorem C85_radius_partial (geometryShader : Bool) (ops : List LayerOp) (hops : ∀ o ∈ ops, o.Fits) (hpos : ∀ c ∈ LayerOp.shown ops, ∀ i, 0 ≤ c.center i) :
    ∃ l, ops.foldlM LayerOp.run { geometryShader := geometryShader } = some l ∧
      ∀ c ∈ LayerOp.shown ops, c.center 0 ^ 2 + c.center 1 ^ 2 + c.center 2 ^ 2 ≤ l.radiusSquared := by
  obtain ⟨l, e, h, -, -, -⟩ := run_shows geometryShader ops hops
  have hb := boxOf_spec (LayerOp.shown ops)
  refine ⟨l, e, fun c hc => ?_⟩
  rw [h.radius, h.box]
  rcases hx : boxOf (LayerOp.shown ops) with _ | ⟨lo, hi⟩
  · rw [hx] at hb; rw [hb] at hc; cases hc
  · rw [hx] at hb
    refine le_trans ?_ (le_max_right _ _)
    unfold squaredLength
    have h0 := hb.1 c hc
    have hp := hpos c hc
    have k : ∀ i, c.center i ^ 2 ≤ hi i * hi i := fun i => by nlinarith [h0 i, hp i]
    linarith [k 0, k 1, k 2]

/-- The hypothesis on the coordinates is met by two cells. -/
example : ∀ c ∈ LayerOp.shown [.setCells [⟨![1, 2, 3], .flat 0⟩, ⟨![0, 5, 1], .flat 0⟩]], ∀ i, 0 ≤ c.center i := by
  intro c hc i
  simp only [LayerOp.shown, List.foldl_cons, List.foldl_nil, List.mem_cons, List.not_mem_nil, or_false] at hc
  rcases hc with rfl | rfl <;> fin_cases i <;> norm_num

/-- Finding: the bounding box covers the centres of the cells, not the cells. A cell of one metre sticks out of it by half a metre. -/
theorem C85_box_fails : ∃ ops l, (∀ o ∈ ops, o.Fits) ∧ ops.foldlM LayerOp.run { geometryShader := false } = some l ∧
    ∃ c ∈ LayerOp.shown ops, ∃ corner, ⟨c.center, some corner, c.colour⟩ ∈ (l.drawn.getD []) ∧ LayerOp.size ops = (1, 1, 1) ∧
      ¬Covers l.box (fun i => c.center i + 1 * corner i) := by
  refine ⟨[.setDimensions 1 1 1, .setCells [⟨![0, 0, 0], .flat 0⟩]], _, ?_, rfl, ⟨![0, 0, 0], .flat 0⟩, by simp [LayerOp.shown], ![-(1 / 2), 1 / 2, -(1 / 2)], ?_, rfl, ?_⟩
  · intro o ho
    simp only [List.mem_cons, List.not_mem_nil, or_false] at ho
    rcases ho with rfl | rfl
    · trivial
    · simp [LayerOp.Fits]
  · decide +kernel
  · rintro ⟨lo, hi, h, hc⟩
    injection h with h
    injection h with h1 h2
    have := (hc 0).1
    rw [← h1] at this
    norm_num at this

/-- Finding: the bounding radius does not reach all cells. It is the larger distance of the smallest and the largest corner of the box, but another corner can be farther away: here the
cell at (-3, 3, 0) is beyond the radius of 3 m. -/
theorem C85_radius_fails : ∃ ops l, (∀ o ∈ ops, o.Fits) ∧ ops.foldlM LayerOp.run { geometryShader := false } = some l ∧
    ∃ c ∈ LayerOp.shown ops, l.radiusSquared = 9 ∧ c.center 0 ^ 2 + c.center 1 ^ 2 + c.center 2 ^ 2 = 18 := by
  have hfits : ∀ o ∈ [LayerOp.setCells [⟨![0, 0, 0], .flat 0⟩, ⟨![-3, 3, 0], .flat 0⟩]], o.Fits := by
    intro o ho
    rw [List.mem_singleton] at ho
    subst ho
    simp [LayerOp.Fits]
  obtain ⟨l, e, h, -⟩ := run_shows false _ hfits
  refine ⟨_, l, hfits, e, ⟨![-3, 3, 0], .flat 0⟩, by simp [LayerOp.shown], ?_, by decide +kernel⟩
  rw [h.radius, h.box]
  decide +kernel

/-- C85: the triangles that are drawn for a cell without a geometry shader cover the surface of the cube completely, and nothing else; and all of them show their same side to the outside. -/
theorem C85_cube (p : Point 3) : (OnCube p ↔ ∃ t ∈ triangles boxVertices, InTriangle t.1 t.2.1 t.2.2 p) ∧ ∀ t ∈ triangles boxVertices, orientation t = -1 / 2 := by
  refine ⟨⟨cube_covered p, ?_⟩, by decide +kernel⟩
  rintro ⟨t, ht, h⟩
  have hf : ∀ t ∈ triangles boxVertices, (∀ i, |t.1 i| ≤ 1 / 2) ∧ (∀ i, |t.2.1 i| ≤ 1 / 2) ∧ (∀ i, |t.2.2 i| ≤ 1 / 2) ∧ ∃ i, t.1 i = t.2.1 i ∧ t.1 i = t.2.2 i ∧ |t.1 i| = 1 / 2 := by
    decide +kernel
  obtain ⟨ha, hb, hc, i, e1, e2, e3⟩ := hf t ht
  exact onCube_of_face ha hb hc e1 e2 e3 h

/-- A point on a face is drawn, the centre is not. -/
example : (∃ t ∈ triangles boxVertices, InTriangle t.1 t.2.1 t.2.2 ![1 / 2, 1 / 4, 0]) ∧ ¬∃ t ∈ triangles boxVertices, InTriangle t.1 t.2.1 t.2.2 ![0, 0, 0] := by
  refine ⟨(C85_cube _).1.1 ⟨by decide +kernel, 0, by decide +kernel⟩, fun h => ?_⟩
  obtain ⟨-, i, hi⟩ := (C85_cube _).1.2 h
  revert hi
  revert i
  decide +kernel

end Wavemap
