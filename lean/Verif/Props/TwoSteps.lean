import Verif.Lemmas.TwoSteps
import Verif.Props.RoundTrip

/-!
# C109: converting in two steps
-/

namespace Pasture.Props

open Spec BorrowedBuffer

section
variable {σ : Type} [BorrowedBuffer σ] [AsMemory σ]

/-- What one conversion does. -/
theorem at_once (source : σ) (l₁ l₃ : PointLayout) (s₁ : Solid l₁) (s₃ : Solid l₃) (ps : List Point)
    (h : SourceShows source l₁ ps) (h₁₃ : ∀ t ∈ l₃.attributes, named l₁ t.name → (defaultPlan l₁ t.definition).isSome) :
    (∃ r, atOnce VectorBuffer l₁ l₃ source = .ok r ∧
      SourceShows r l₃ (ps.map fun p => (defaultPlan l₁).apply p (zeroPoint l₃))) ∧
    (∃ r, atOnce HashMapBuffer l₁ l₃ source = .ok r ∧
      SourceShows r l₃ (ps.map fun p => (defaultPlan l₁).apply p (zeroPoint l₃))) := by
  obtain ⟨c, hc⟩ := (C28_with_default l₁ l₃ s₃).1.2 h₁₃
  have b : Built l₁ l₃ [] c := ⟨c, .inr hc, rfl⟩
  obtain ⟨m, hm, hm', hm''⟩ := C27_convert_interleaved source l₁ l₃ s₁ s₃ ps h [] (by simp) c b
  obtain ⟨n, hn, hn', hn''⟩ := C27_convert_columnar source l₁ l₃ s₁ s₃ ps h [] (by simp) c b
  refine ⟨⟨m, ?_, vector_middle s₃ hm' hm''⟩, ⟨n, ?_, hashmap_middle s₃ hn' hn''⟩⟩
  · unfold atOnce; rw [hc]; exact hm
  · unfold atOnce; rw [hc]; exact hn

/-- What two conversions do. -/
theorem in_two_steps (source : σ) (l₁ l₂ l₃ : PointLayout) (s₁ : Solid l₁) (s₂ : Solid l₂) (s₃ : Solid l₃) (ps : List Point)
    (h : SourceShows source l₁ ps) (h₁₂ : ∀ t ∈ l₂.attributes, named l₁ t.name → (defaultPlan l₁ t.definition).isSome)
    (h₂₃ : ∀ t ∈ l₃.attributes, named l₂ t.name → (defaultPlan l₂ t.definition).isSome) :
    let qs := (ps.map fun p => (defaultPlan l₁).apply p (zeroPoint l₂)).map fun p => (defaultPlan l₂).apply p (zeroPoint l₃)
    (∃ r, inTwoSteps VectorBuffer VectorBuffer l₁ l₂ l₃ source = .ok r ∧ ShowsPoints r l₃ qs) ∧
    (∃ r, inTwoSteps VectorBuffer HashMapBuffer l₁ l₂ l₃ source = .ok r ∧ ShowsPoints r l₃ qs) ∧
    (∃ r, inTwoSteps HashMapBuffer VectorBuffer l₁ l₂ l₃ source = .ok r ∧ ShowsPoints r l₃ qs) ∧
    (∃ r, inTwoSteps HashMapBuffer HashMapBuffer l₁ l₂ l₃ source = .ok r ∧ ShowsPoints r l₃ qs) := by
  obtain ⟨⟨m, hm, sm⟩, ⟨n, hn, sn⟩⟩ := at_once source l₁ l₂ s₁ s₂ ps h h₁₂
  obtain ⟨⟨r1, e1, t1⟩, ⟨r2, e2, t2⟩⟩ := at_once m l₂ l₃ s₂ s₃ _ sm h₂₃
  obtain ⟨⟨r3, e3, t3⟩, ⟨r4, e4, t4⟩⟩ := at_once n l₂ l₃ s₂ s₃ _ sn h₂₃
  refine ⟨⟨r1, ?_, t1.points⟩, ⟨r2, ?_, t2.points⟩, ⟨r3, ?_, t3.points⟩, ⟨r4, ?_, t4.points⟩⟩
  · unfold inTwoSteps; rw [hm]; exact e1
  · unfold inTwoSteps; rw [hm]; exact e2
  · unfold inTwoSteps; rw [hn]; exact e3
  · unfold inTwoSteps; rw [hn]; exact e4

/-- **C109.** If both steps are possible and the layout in between does not get in the way, a conversion in two steps shows
    the points that a conversion at once shows, whatever kinds of buffers are used. -/
theorem C109_two_steps (source : σ) (l₁ l₂ l₃ : PointLayout) (s₁ : Solid l₁) (s₂ : Solid l₂) (s₃ : Solid l₃)
    (ps : List Point) (h : SourceShows source l₁ ps) (hw : OnTheWay l₁ l₂ l₃) (hc : ∀ p ∈ ps, FreeOfDetours l₁ l₂ l₃ p)
    (h₁₂ : ∃ c, BufferLayoutConverter.forLayoutsWithDefault l₁ l₂ = .ok c)
    (h₂₃ : ∃ c, BufferLayoutConverter.forLayoutsWithDefault l₂ l₃ = .ok c) :
    ∃ qs,
      ((∃ r, atOnce VectorBuffer l₁ l₃ source = .ok r ∧ ShowsPoints r l₃ qs) ∧
        ∃ r, atOnce HashMapBuffer l₁ l₃ source = .ok r ∧ ShowsPoints r l₃ qs) ∧
      (∃ r, inTwoSteps VectorBuffer VectorBuffer l₁ l₂ l₃ source = .ok r ∧ ShowsPoints r l₃ qs) ∧
      (∃ r, inTwoSteps VectorBuffer HashMapBuffer l₁ l₂ l₃ source = .ok r ∧ ShowsPoints r l₃ qs) ∧
      (∃ r, inTwoSteps HashMapBuffer VectorBuffer l₁ l₂ l₃ source = .ok r ∧ ShowsPoints r l₃ qs) ∧
      (∃ r, inTwoSteps HashMapBuffer HashMapBuffer l₁ l₂ l₃ source = .ok r ∧ ShowsPoints r l₃ qs) := by
  have p12 := (C28_with_default l₁ l₂ s₂).1.1 h₁₂
  have p23 := (C28_with_default l₂ l₃ s₃).1.1 h₂₃
  obtain ⟨⟨a, ha, sa⟩, ⟨b, hb, sb⟩⟩ := at_once source l₁ l₃ s₁ s₃ ps h (at_once_some s₁ s₂ hw p12 p23)
  have e : ((ps.map fun p => (defaultPlan l₁).apply p (zeroPoint l₂)).map fun p => (defaultPlan l₂).apply p (zeroPoint l₃)) =
      ps.map fun p => (defaultPlan l₁).apply p (zeroPoint l₃) := by
    rw [List.map_map]
    apply List.map_congr_left
    intro p hp
    obtain ⟨i, hi⟩ := List.mem_iff_getElem?.1 hp
    obtain ⟨r, _, h2, rfl⟩ := h.points.getPoint_ok i p (zeros l₁.size) hi (by simp [zeros])
    exact point_straight s₁ s₂ hw p12 p23 h2 (hc _ hp)
  have := in_two_steps source l₁ l₂ l₃ s₁ s₂ s₃ ps h p12 p23
  dsimp only at this
  rw [e] at this
  exact ⟨_, ⟨⟨a, ha, sa.points⟩, ⟨b, hb, sb.points⟩⟩, this⟩

end

/-- The table of types is the weakest one: if the types of an attribute are not in it and all three conversions are
    possible, there is a point, without NaNs, for which the two ways differ. -/
theorem C109_only_then (l₁ l₂ l₃ : PointLayout) (s₁ : Solid l₁) (s₂ : Solid l₂) (s₃ : Solid l₃)
    (h₁₂ : ∃ c, BufferLayoutConverter.forLayoutsWithDefault l₁ l₂ = .ok c)
    (h₂₃ : ∃ c, BufferLayoutConverter.forLayoutsWithDefault l₂ l₃ = .ok c)
    (h₁₃ : ∃ c, BufferLayoutConverter.forLayoutsWithDefault l₁ l₃ = .ok c) (m n t : Member) (hm : m ∈ l₁.attributes)
    (hn : n ∈ l₂.attributes) (ht : t ∈ l₃.attributes) (hnm : n.name = m.name) (htm : t.name = m.name)
    (hs : ¬ Straight m.datatype n.datatype t.datatype) :
    ∃ (b : VectorBuffer) (p : Point), SourceShows b l₁ [p] ∧ FreeOfDetours l₁ l₂ l₃ p ∧
      ∃ r r' q q', atOnce VectorBuffer l₁ l₃ b = .ok r ∧ ShowsPoints r l₃ [q] ∧
        inTwoSteps VectorBuffer VectorBuffer l₁ l₂ l₃ b = .ok r' ∧ ShowsPoints r' l₃ [q'] ∧ q' ≠ q := by
  have p12 := (C28_with_default l₁ l₂ s₂).1.1 h₁₂
  have p23 := (C28_with_default l₂ l₃ s₃).1.1 h₂₃
  have p13 := (C28_with_default l₁ l₃ s₃).1.1 h₁₃
  obtain ⟨r, h1, h2, h3⟩ := point_bent s₁ s₂ s₃ hm hn ht hnm htm hs (p12 n hn ⟨m, hm, hnm.symm⟩)
    (p23 t ht ⟨n, hn, hnm.trans htm.symm⟩) (p13 t ht ⟨m, hm, htm.symm⟩)
  have hb : SourceShows (Interleaved.ofRecords l₁ [r] : VectorBuffer) l₁ [pointOf l₁ r] := by
    have := interleaved_shows_records s₁ (rs := [r]) (by intro x hx; rw [List.mem_singleton.1 hx]; exact h1)
    exact ⟨this.points, [r], this, rfl⟩
  obtain ⟨⟨a, ha, sa⟩, _⟩ := at_once _ l₁ l₃ s₁ s₃ _ hb p13
  obtain ⟨⟨c, hc, sc⟩, _⟩ := in_two_steps _ l₁ l₂ l₃ s₁ s₂ s₃ _ hb p12 p23
  exact ⟨_, _, hb, h2, a, c, _, _, ha, sa.points, hc, sc, h3⟩

/-! ### A concrete case

Positions go from `f32` over `f64` to `i32`, a small number from `i16` over `f32` to `i64`, and a colour channel from `u32`
over `u16` to `u8`. -/

def firstLayout : PointLayout := ⟨[⟨⟨"p", .vec3f32⟩, 0⟩, ⟨⟨"k", .i16⟩, 12⟩, ⟨⟨"c", .u32⟩, 16⟩], 20, 4⟩

def betweenLayout : PointLayout :=
  ⟨[⟨⟨"c", .u16⟩, 0⟩, ⟨⟨"k", .f32⟩, 4⟩, ⟨⟨"p", .vec3f64⟩, 8⟩, ⟨⟨"x", .f32⟩, 32⟩], 40, 8⟩

def lastLayout : PointLayout :=
  ⟨[⟨⟨"k", .i64⟩, 0⟩, ⟨⟨"p", .vec3i32⟩, 8⟩, ⟨⟨"x", .u16⟩, 20⟩, ⟨⟨"c", .u8⟩, 22⟩], 24, 8⟩

/-- One point: (0.5, -2.5, 1), -3, 0x12345678. -/
def firstRecord : Bytes :=
  [0, 0, 0, 0x3F, 0, 0, 0x20, 0xC0, 0, 0, 0x80, 0x3F, 0xFD, 0xFF, 0, 0, 0x78, 0x56, 0x34, 0x12]

theorem first_solid : Solid firstLayout := ⟨by decide, by decide, by decide, by decide, by decide⟩

theorem between_solid : Solid betweenLayout := ⟨by decide, by decide, by decide, by decide, by decide⟩

theorem last_solid : Solid lastLayout := ⟨by decide, by decide, by decide, by decide, by decide⟩

theorem between_way : OnTheWay firstLayout betweenLayout lastLayout := by
  intro m hm t ht hn
  simp only [firstLayout, lastLayout, List.mem_cons, List.not_mem_nil, or_false] at hm ht
  rcases hm with rfl | rfl | rfl <;> rcases ht with rfl | rfl | rfl | rfl <;>
    first
      | exact absurd hn (by decide)
      | exact ⟨⟨⟨"p", .vec3f64⟩, 8⟩, by decide, rfl, .inr (.inr (.inr ⟨.f32, .f64, .i32, rfl, rfl, rfl, rfl⟩))⟩
      | exact ⟨⟨⟨"k", .f32⟩, 4⟩, by decide, rfl, .inr (.inr (.inl ⟨.i16, .f32, .i64, rfl, rfl, rfl, rfl⟩))⟩
      | exact ⟨⟨⟨"c", .u16⟩, 0⟩, by decide, rfl, .inr (.inr (.inl ⟨.u32, .u16, .u8, rfl, rfl, rfl, rfl⟩))⟩

theorem first_free (p : Point) : FreeOfDetours firstLayout betweenLayout lastLayout p := by
  intro m hm n _ t ht _ hn _ he
  simp only [firstLayout, lastLayout, List.mem_cons, List.not_mem_nil, or_false] at hm ht
  rcases hm with rfl | rfl | rfl <;> rcases ht with rfl | rfl | rfl | rfl <;> first | exact absurd hn (by decide) | cases he

/-- The hypotheses are met; both ways give the same bytes. -/
example : SourceShows (⟨firstRecord, firstLayout, 1⟩ : VectorBuffer) firstLayout [pointOf firstLayout firstRecord] ∧
    OnTheWay firstLayout betweenLayout lastLayout ∧
    (∀ p ∈ [pointOf firstLayout firstRecord], FreeOfDetours firstLayout betweenLayout lastLayout p) ∧
    (∃ c, BufferLayoutConverter.forLayoutsWithDefault firstLayout betweenLayout = .ok c) ∧
    (∃ c, BufferLayoutConverter.forLayoutsWithDefault betweenLayout lastLayout = .ok c) ∧
    (inTwoSteps HashMapBuffer VectorBuffer firstLayout betweenLayout lastLayout
      (⟨firstRecord, firstLayout, 1⟩ : VectorBuffer)).map (fun b => b.storage) =
      .ok [0xFD, 0xFF, 0xFF, 0xFF, 0xFF, 0xFF, 0xFF, 0xFF, 0, 0, 0, 0, 0xFE, 0xFF, 0xFF, 0xFF, 1, 0, 0, 0, 0, 0, 0x78, 0] ∧
    (atOnce VectorBuffer firstLayout lastLayout (⟨firstRecord, firstLayout, 1⟩ : VectorBuffer)).map (fun b => b.storage) =
      .ok [0xFD, 0xFF, 0xFF, 0xFF, 0xFF, 0xFF, 0xFF, 0xFF, 0, 0, 0, 0, 0xFE, 0xFF, 0xFF, 0xFF, 1, 0, 0, 0, 0, 0, 0x78, 0] := by
  refine ⟨?_, between_way, fun p _ => first_free p, ?_, ?_, by decide +kernel, by decide +kernel⟩
  · have := interleaved_shows_records first_solid (rs := [firstRecord]) (by intro x hx; rw [List.mem_singleton.1 hx]; rfl)
    exact ⟨this.points, [firstRecord], this, rfl⟩
  · exact (C28_with_default _ _ between_solid).1.2 (by decide +kernel)
  · exact (C28_with_default _ _ last_solid).1.2 (by decide +kernel)

/-- Types that are not in the table: -1 as an `i8` becomes 65535 in `u16` and stays so in `i32`. -/
example : straight .i8 .u16 .i32 = false ∧
    (inTwoSteps VectorBuffer VectorBuffer ⟨[⟨⟨"k", .i8⟩, 0⟩], 1, 1⟩ ⟨[⟨⟨"k", .u16⟩, 0⟩], 2, 2⟩ ⟨[⟨⟨"k", .i32⟩, 0⟩], 4, 4⟩
      (⟨[255], ⟨[⟨⟨"k", .i8⟩, 0⟩], 1, 1⟩, 1⟩ : VectorBuffer)).map (fun b => b.storage) = .ok [255, 255, 0, 0] ∧
    (atOnce VectorBuffer ⟨[⟨⟨"k", .i8⟩, 0⟩], 1, 1⟩ ⟨[⟨⟨"k", .i32⟩, 0⟩], 4, 4⟩
      (⟨[255], ⟨[⟨⟨"k", .i8⟩, 0⟩], 1, 1⟩, 1⟩ : VectorBuffer)).map (fun b => b.storage) = .ok [255, 255, 255, 255] := by
  refine ⟨by decide, by decide +kernel, by decide +kernel⟩

end Pasture.Props
