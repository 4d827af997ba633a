import Verif.Lemmas.RoundTrip

/-!
# C105: converting to a roomier layout and back
-/

namespace Pasture.Props

open Spec BorrowedBuffer

section
variable {σ : Type} [BorrowedBuffer σ] [AsMemory σ]

theorem source_cleans {source : σ} {ls lt : PointLayout} (hs : Solid ls) (ht : Solid lt) {ps : List Point}
    (h : SourceShows source ls ps) (hr : Roomier ls lt) (hc : ∀ p ∈ ps, FreeOfNaNs ls lt p) :
    (ps.map fun p => (defaultPlan ls).apply p (zeroPoint lt)).map (fun p => (defaultPlan lt).apply p (zeroPoint ls)) = ps := by
  rw [List.map_map]
  conv_rhs => rw [← List.map_id ps]
  apply List.map_congr_left
  intro p hp
  obtain ⟨i, hi⟩ := List.mem_iff_getElem?.1 hp
  obtain ⟨r, _, h2, rfl⟩ := h.points.getPoint_ok i p (zeros ls.size) hi (by simp [zeros])
  exact point_back hs ht hr h2 (hc _ hp)

theorem vector_middle {b : VectorBuffer} {l : PointLayout} (hl : Solid l) {ps : List Point} (hb : VectorConsistent b)
    (h : ShowsPoints b l ps) : SourceShows b l ps := by
  have e : b.layout = l := h.layout_eq
  subst e
  obtain ⟨qs, hq⟩ := vector_source b hl hb
  rwa [showsPoints_unique h hq.points]

theorem hashmap_middle {b : HashMapBuffer} {l : PointLayout} (hl : Solid l) {ps : List Point} (hb : HashMapConsistent b)
    (h : ShowsPoints b l ps) : SourceShows b l ps := by
  have e : b.layout = l := h.layout_eq
  subst e
  obtain ⟨qs, hq⟩ := hashmap_source b hl hb
  rwa [showsPoints_unique h hq.points]

/-- What the two conversions do, for all kinds of buffers. -/
theorem there_and_back (source : σ) (ls lt : PointLayout) (hs : Solid ls) (ht : Solid lt) (ps : List Point)
    (h : SourceShows source ls ps)
    (hthere : ∀ t ∈ lt.attributes, named ls t.name → (defaultPlan ls t.definition).isSome)
    (hback : ∀ m ∈ ls.attributes, (defaultPlan lt m.definition).isSome) :
    let qs := (ps.map fun p => (defaultPlan ls).apply p (zeroPoint lt)).map fun p => (defaultPlan lt).apply p (zeroPoint ls)
    (∃ r, thereAndBack VectorBuffer VectorBuffer ls lt source = .ok r ∧ ShowsPoints r ls qs) ∧
    (∃ r, thereAndBack VectorBuffer HashMapBuffer ls lt source = .ok r ∧ ShowsPoints r ls qs) ∧
    (∃ r, thereAndBack HashMapBuffer VectorBuffer ls lt source = .ok r ∧ ShowsPoints r ls qs) ∧
    (∃ r, thereAndBack HashMapBuffer HashMapBuffer ls lt source = .ok r ∧ ShowsPoints r ls qs) := by
  obtain ⟨c1, h1⟩ := (C28_with_default ls lt ht).1.2 hthere
  obtain ⟨c2, h2⟩ := (C28_for_layouts lt ls hs).1.2 hback
  have b1 : Built ls lt [] c1 := ⟨c1, .inr h1, rfl⟩
  have b2 : Built lt ls [] c2 := ⟨c2, .inl h2, rfl⟩
  obtain ⟨m, hm, hm', hm''⟩ := C27_convert_interleaved source ls lt hs ht ps h [] (by simp) c1 b1
  obtain ⟨n, hn, hn', hn''⟩ := C27_convert_columnar source ls lt hs ht ps h [] (by simp) c1 b1
  have sm := vector_middle ht hm' hm''
  have sn := hashmap_middle ht hn' hn''
  obtain ⟨r1, e1, _, s1⟩ := C27_convert_interleaved m lt ls ht hs _ sm [] (by simp) c2 b2
  obtain ⟨r2, e2, _, s2⟩ := C27_convert_columnar m lt ls ht hs _ sm [] (by simp) c2 b2
  obtain ⟨r3, e3, _, s3⟩ := C27_convert_interleaved n lt ls ht hs _ sn [] (by simp) c2 b2
  obtain ⟨r4, e4, _, s4⟩ := C27_convert_columnar n lt ls ht hs _ sn [] (by simp) c2 b2
  refine ⟨⟨r1, ?_, s1⟩, ⟨r2, ?_, s2⟩, ⟨r3, ?_, s3⟩, ⟨r4, ?_, s4⟩⟩
  · unfold thereAndBack; rw [h1]; show (c1.convert VectorBuffer source >>= _) = _
    rw [hm, h2]; exact e1
  · unfold thereAndBack; rw [h1]; show (c1.convert VectorBuffer source >>= _) = _
    rw [hm, h2]; exact e2
  · unfold thereAndBack; rw [h1]; show (c1.convert HashMapBuffer source >>= _) = _
    rw [hn, h2]; exact e3
  · unfold thereAndBack; rw [h1]; show (c1.convert HashMapBuffer source >>= _) = _
    rw [hn, h2]; exact e4

/-- **C105.** A buffer converted to a layout that has all of its attributes, with types that keep their values, and back, has
    the points it had, whatever kinds of buffers are used. -/
theorem C105_there_and_back (source : σ) (ls lt : PointLayout) (hs : Solid ls) (ht : Solid lt) (ps : List Point)
    (h : SourceShows source ls ps) (hr : Roomier ls lt) (hc : ∀ p ∈ ps, FreeOfNaNs ls lt p) :
    (∃ r, thereAndBack VectorBuffer VectorBuffer ls lt source = .ok r ∧ ShowsPoints r ls ps) ∧
    (∃ r, thereAndBack VectorBuffer HashMapBuffer ls lt source = .ok r ∧ ShowsPoints r ls ps) ∧
    (∃ r, thereAndBack HashMapBuffer VectorBuffer ls lt source = .ok r ∧ ShowsPoints r ls ps) ∧
    (∃ r, thereAndBack HashMapBuffer HashMapBuffer ls lt source = .ok r ∧ ShowsPoints r ls ps) := by
  have := there_and_back source ls lt hs ht ps h (there_some hs ht hr) (back_some ht hr)
  dsimp only at this
  rwa [source_cleans hs ht h hr hc] at this

end

/-- The condition on the layouts is the weakest one: for all other layouts, the conversions are refused whatever the points
    are, or there is a point, without NaNs, that comes back changed. -/
theorem C105_only_then (ls lt : PointLayout) (hs : Solid ls) (ht : Solid lt) (hr : ¬ Roomier ls lt) :
    (∀ (b : VectorBuffer) (ps : List Point), SourceShows b ls ps →
      thereAndBack VectorBuffer VectorBuffer ls lt b = .error .panic) ∨
    ∃ (b : VectorBuffer) (p : Point), SourceShows b ls [p] ∧ FreeOfNaNs ls lt p ∧
      ∃ r q, thereAndBack VectorBuffer VectorBuffer ls lt b = .ok r ∧ ShowsPoints r ls [q] ∧ q ≠ p := by
  by_cases hthere : ∀ t ∈ lt.attributes, named ls t.name → (defaultPlan ls t.definition).isSome
  · by_cases hback : ∀ m ∈ ls.attributes, (defaultPlan lt m.definition).isSome
    · right
      obtain ⟨r, h1, h2, h3⟩ := point_lost hs ht hr hthere hback
      have hb : SourceShows (Interleaved.ofRecords ls [r] : VectorBuffer) ls [pointOf ls r] := by
        have := interleaved_shows_records hs (rs := [r]) (by intro x hx; rw [List.mem_singleton.1 hx]; exact h1)
        exact ⟨this.points, [r], this, rfl⟩
      obtain ⟨⟨c, e, s⟩, _⟩ := there_and_back _ ls lt hs ht _ hb hthere hback
      exact ⟨_, _, hb, h2, c, _, e, s, h3⟩
    · left
      intro b ps h
      obtain ⟨c1, h1⟩ := (C28_with_default ls lt ht).1.2 hthere
      obtain ⟨m, hm, _⟩ := C27_convert_interleaved b ls lt hs ht ps h [] (by simp) c1 ⟨c1, .inr h1, rfl⟩
      unfold thereAndBack
      rw [h1]
      show (c1.convert VectorBuffer b >>= _) = _
      rw [hm, (C28_for_layouts lt ls hs).2 hback]
      rfl
  · left
    intro b ps _
    unfold thereAndBack
    rw [(C28_with_default ls lt ht).2 hthere]
    rfl

/-! ### A concrete case

Positions in `f32`, a signed and an unsigned number are moved to a layout with other types, another order and a further
attribute. -/

def tightLayout : PointLayout := ⟨[⟨⟨"p", .vec3f32⟩, 0⟩, ⟨⟨"k", .i16⟩, 12⟩, ⟨⟨"c", .u8⟩, 14⟩], 16, 4⟩

def roomyLayout : PointLayout :=
  ⟨[⟨⟨"x", .u8⟩, 0⟩, ⟨⟨"k", .f64⟩, 8⟩, ⟨⟨"p", .vec3f64⟩, 16⟩, ⟨⟨"c", .i8⟩, 40⟩], 48, 8⟩

/-- One point: (0.5, -2.5, 1), -3, 200. -/
def tightRecord : Bytes := [0, 0, 0, 0x3F, 0, 0, 0x20, 0xC0, 0, 0, 0x80, 0x3F, 0xFD, 0xFF, 200, 0]

theorem tight_solid : Solid tightLayout := ⟨by decide, by decide, by decide, by decide, by decide⟩

theorem roomy_solid : Solid roomyLayout := ⟨by decide, by decide, by decide, by decide, by decide⟩

theorem roomy_roomier : Roomier tightLayout roomyLayout := by
  intro m hm
  simp only [tightLayout, List.mem_cons, List.not_mem_nil, or_false] at hm
  rcases hm with rfl | rfl | rfl
  · exact ⟨⟨⟨"p", .vec3f64⟩, 16⟩, by decide, rfl, .inr (.inr ⟨.f32, .f64, rfl, rfl, rfl⟩)⟩
  · exact ⟨⟨⟨"k", .f64⟩, 8⟩, by decide, rfl, .inr (.inl ⟨.i16, .f64, rfl, rfl, rfl⟩)⟩
  · exact ⟨⟨⟨"c", .i8⟩, 40⟩, by decide, rfl, .inr (.inl ⟨.u8, .i8, rfl, rfl, rfl⟩)⟩

theorem tight_free : FreeOfNaNs tightLayout roomyLayout (pointOf tightLayout tightRecord) := by
  intro m hm t _ _ _ v hv
  simp only [tightLayout, List.mem_cons, List.not_mem_nil, or_false] at hm
  rcases hm with rfl | rfl | rfl
  · have e : v = tightRecord.take 12 := by
      rw [show (pointOf tightLayout tightRecord).get _ = some (tightRecord.take 12) by decide +kernel] at hv
      exact (Option.some.inj hv).symm
    subst e
    refine ⟨fun h => (by cases h), fun _ i hi => notNaN_of_small ?_⟩
    revert i
    decide +kernel
  · exact ⟨fun h => (by cases h), fun h => (by cases h)⟩
  · exact ⟨fun h => (by cases h), fun h => (by cases h)⟩

/-- The hypotheses are met, and the buffer in between has other bytes. -/
example : SourceShows (⟨tightRecord, tightLayout, 1⟩ : VectorBuffer) tightLayout [pointOf tightLayout tightRecord] ∧
    Roomier tightLayout roomyLayout ∧ FreeOfNaNs tightLayout roomyLayout (pointOf tightLayout tightRecord) ∧
    ((BufferLayoutConverter.forLayoutsWithDefault tightLayout roomyLayout).bind fun c =>
      (c.convert HashMapBuffer (⟨tightRecord, tightLayout, 1⟩ : VectorBuffer)).map fun b => b.columns) =
      .ok [(⟨"x", .u8⟩, [0]), (⟨"k", .f64⟩, [0, 0, 0, 0, 0, 0, 0x08, 0xC0]),
        (⟨"p", .vec3f64⟩, [0, 0, 0, 0, 0, 0, 0xE0, 0x3F, 0, 0, 0, 0, 0, 0, 0x04, 0xC0, 0, 0, 0, 0, 0, 0, 0xF0, 0x3F]),
        (⟨"c", .i8⟩, [200])] ∧
    (thereAndBack HashMapBuffer VectorBuffer tightLayout roomyLayout (⟨tightRecord, tightLayout, 1⟩ : VectorBuffer)).map
      (fun b => b.storage) = .ok tightRecord := by
  refine ⟨?_, roomy_roomier, tight_free, by decide +kernel, by decide +kernel⟩
  have := interleaved_shows_records tight_solid (rs := [tightRecord]) (by intro x hx; rw [List.mem_singleton.1 hx]; rfl)
  exact ⟨this.points, [tightRecord], this, rfl⟩

/-- Layouts of which the first has room for values that the second has not: 2^24 + 1 comes back from `f32` as 2^24. -/
example : Solid ⟨[⟨⟨"k", .i32⟩, 0⟩], 4, 4⟩ ∧ Solid ⟨[⟨⟨"k", .f32⟩, 0⟩], 4, 4⟩ ∧
    ¬ Roomier ⟨[⟨⟨"k", .i32⟩, 0⟩], 4, 4⟩ ⟨[⟨⟨"k", .f32⟩, 0⟩], 4, 4⟩ ∧
    (thereAndBack VectorBuffer VectorBuffer ⟨[⟨⟨"k", .i32⟩, 0⟩], 4, 4⟩ ⟨[⟨⟨"k", .f32⟩, 0⟩], 4, 4⟩
      (⟨[1, 0, 0, 1], ⟨[⟨⟨"k", .i32⟩, 0⟩], 4, 4⟩, 1⟩ : VectorBuffer)).map (fun b => b.storage) = .ok [0, 0, 0, 1] := by
  refine ⟨⟨by decide, by decide, by decide, by decide, by decide⟩, ⟨by decide, by decide, by decide, by decide, by decide⟩, ?_,
    by decide +kernel⟩
  intro h
  obtain ⟨t, ht, _, hk⟩ := h ⟨⟨"k", .i32⟩, 0⟩ (by decide)
  rw [List.mem_singleton.1 ht] at hk
  rcases hk with hk | ⟨p, q, hp, hq, hk⟩ | ⟨p, q, hp, _⟩
  · cases hk
  · cases hp
    cases hq
    cases hk
  · cases hp

end Pasture.Props
