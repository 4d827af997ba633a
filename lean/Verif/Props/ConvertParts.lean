import Verif.Props.Collect
import Verif.Props.ConvertSlices
import Verif.Props.RoundTrip

/-!
# C111: conversions of parts
-/

namespace Pasture.Props

open Spec BorrowedBuffer

section
variable (ls lt : PointLayout) (hs : Solid ls) (ht : Solid lt) (calls : List MappingCall) (hsound : ∀ c ∈ calls, c.sound)
  (conv : BufferLayoutConverter) (hconv : Built ls lt calls conv)
include hs ht hsound hconv

/-- **C111**, collecting: converting two interleaved buffers and appending the results gives the points of the conversion of
    the appended buffers. -/
theorem C111_append_interleaved (a b : VectorBuffer) (ps qs : List Point) (ha : SourceShows a ls ps) (hb : SourceShows b ls qs)
    (hca : VectorConsistent a) :
    ∃ ab ab' a' b' c xs, append a b = .ok ab ∧ conv.convert VectorBuffer ab = .ok ab' ∧ ShowsPoints ab' lt xs ∧
      conv.convert VectorBuffer a = .ok a' ∧ conv.convert VectorBuffer b = .ok b' ∧ append a' b' = .ok c ∧
      ShowsPoints c lt xs := by
  have ea : a.layout = ls := ha.points.layout_eq
  subst ea
  obtain ⟨ab, h1, h2, h3⟩ := C13_append_to_vector a b hs hca ps qs ha.points hb.points
  obtain ⟨ab', h4, _, h5⟩ := C27_convert_interleaved ab _ lt hs ht _ (vector_middle hs h3 h2) calls hsound conv hconv
  obtain ⟨a', h6, h7, h8⟩ := C27_convert_interleaved a _ lt hs ht _ ha calls hsound conv hconv
  obtain ⟨b', h9, _, h10⟩ := C27_convert_interleaved b _ lt hs ht _ hb calls hsound conv hconv
  have e : a'.layout = lt := h8.layout_eq
  obtain ⟨c, h11, h12, _⟩ := C13_append_to_vector a' b' (e ▸ ht) h7 _ _ (e ▸ h8) (e ▸ h10)
  rw [e, ← List.map_append] at h12
  exact ⟨ab, ab', a', b', c, _, h1, h4, h5, h6, h9, h11, h12⟩

/-- **C111**, collecting, for columnar buffers. -/
theorem C111_append_columnar (a b : HashMapBuffer) (ps qs : List Point) (ha : SourceShows a ls ps) (hb : SourceShows b ls qs)
    (hca : HashMapConsistent a) :
    ∃ ab ab' a' b' c xs, append a b = .ok ab ∧ conv.convert HashMapBuffer ab = .ok ab' ∧ ShowsPoints ab' lt xs ∧
      conv.convert HashMapBuffer a = .ok a' ∧ conv.convert HashMapBuffer b = .ok b' ∧ append a' b' = .ok c ∧
      ShowsPoints c lt xs := by
  have ea : a.layout = ls := ha.points.layout_eq
  subst ea
  obtain ⟨ab, h1, h2, h3⟩ := C13_append_to_hashmap a b hs hca ps qs ha.points hb.points
  obtain ⟨ab', h4, _, h5⟩ := C27_convert_columnar ab _ lt hs ht _ (hashmap_middle hs h3 h2) calls hsound conv hconv
  obtain ⟨a', h6, h7, h8⟩ := C27_convert_columnar a _ lt hs ht _ ha calls hsound conv hconv
  obtain ⟨b', h9, _, h10⟩ := C27_convert_columnar b _ lt hs ht _ hb calls hsound conv hconv
  have e : a'.layout = lt := h8.layout_eq
  obtain ⟨c, h11, h12, _⟩ := C13_append_to_hashmap a' b' (e ▸ ht) h7 _ _ (e ▸ h8) (e ▸ h10)
  rw [e, ← List.map_append] at h12
  exact ⟨ab, ab', a', b', c, _, h1, h4, h5, h6, h9, h11, h12⟩

/-- **C111**, filtering: the conversion of a filtered buffer has the points of the filtered conversion. -/
theorem C111_filter (b : HashMapBuffer) (ps : List Point) (hb : SourceShows b ls ps) (hc : HashMapConsistent b)
    (p : Nat → Bool) :
    ∃ f f' b' c xs, b.filterToHashMap p = .ok f ∧ conv.convert HashMapBuffer f = .ok f' ∧ ShowsPoints f' lt xs ∧
      conv.convert HashMapBuffer b = .ok b' ∧ b'.filterToHashMap p = .ok c ∧ ShowsPoints c lt xs := by
  have eb : b.layout = ls := hb.points.layout_eq
  subst eb
  obtain ⟨f, h1, h2, h3⟩ := C16_filter_to_hashmap b hs hc ps hb.points p
  obtain ⟨f', h4, _, h5⟩ := C27_convert_columnar f _ lt hs ht _ (hashmap_middle hs h3 h2) calls hsound conv hconv
  obtain ⟨b', h6, h7, h8⟩ := C27_convert_columnar b _ lt hs ht _ hb calls hsound conv hconv
  have e : b'.layout = lt := h8.layout_eq
  obtain ⟨c, h9, h10, _⟩ := C16_filter_to_hashmap b' (e ▸ ht) h7 _ (e ▸ h8) p
  rw [e, keep_map] at h10
  exact ⟨f, f', b', c, _, h1, h4, h5, h6, h9, h10⟩

/-- **C111**, slices: the conversion of a slice of an interleaved buffer, to either kind of buffer, has the points of the
    slice of the conversion. -/
theorem C111_slice_interleaved (b : VectorBuffer) (ps : List Point) (hb : SourceShows b ls ps) (s e : Nat) (hse : s ≤ e)
    (he : e ≤ len b) :
    ∃ v w b' xs, conv.convert VectorBuffer (b.slice ⟨s, e⟩) = .ok v ∧ ShowsPoints v lt xs ∧
      conv.convert HashMapBuffer (b.slice ⟨s, e⟩) = .ok w ∧ ShowsPoints w lt xs ∧
      conv.convert VectorBuffer b = .ok b' ∧ ShowsPoints (b'.slice ⟨s, e⟩) lt xs := by
  rw [hb.points.len_eq] at he
  have hsl := C27_slice_source_interleaved b ls hs ps hb s e hse he
  obtain ⟨v, h1, _, h2⟩ := C27_convert_interleaved (b.slice ⟨s, e⟩) _ lt hs ht _ hsl calls hsound conv hconv
  obtain ⟨w, h3, _, h4⟩ := C27_convert_columnar (b.slice ⟨s, e⟩) _ lt hs ht _ hsl calls hsound conv hconv
  obtain ⟨b', h5, h6, h7⟩ := C27_convert_interleaved b _ lt hs ht _ hb calls hsound conv hconv
  have := C27_slice_source_interleaved b' lt ht _ (vector_middle ht h6 h7) s e hse (by rw [List.length_map]; exact he)
  have hm : ∀ f : Point → Point, sub (ps.map f) s e = (sub ps s e).map f := fun f => part_map ..
  rw [hm] at this
  exact ⟨v, w, b', _, h1, h2, h3, h4, h5, this.points⟩

/-- **C111**, slices of columnar buffers. -/
theorem C111_slice_columnar (b : HashMapBuffer) (ps : List Point) (hb : SourceShows b ls ps) (s e : Nat) (hse : s ≤ e)
    (he : e ≤ len b) :
    ∃ v w b' xs, conv.convert VectorBuffer (b.slice ⟨s, e⟩) = .ok v ∧ ShowsPoints v lt xs ∧
      conv.convert HashMapBuffer (b.slice ⟨s, e⟩) = .ok w ∧ ShowsPoints w lt xs ∧
      conv.convert HashMapBuffer b = .ok b' ∧ ShowsPoints (b'.slice ⟨s, e⟩) lt xs := by
  rw [hb.points.len_eq] at he
  have hsl := C27_slice_source_columnar b ls hs ps hb s e hse he
  obtain ⟨v, h1, _, h2⟩ := C27_convert_interleaved (b.slice ⟨s, e⟩) _ lt hs ht _ hsl calls hsound conv hconv
  obtain ⟨w, h3, _, h4⟩ := C27_convert_columnar (b.slice ⟨s, e⟩) _ lt hs ht _ hsl calls hsound conv hconv
  obtain ⟨b', h5, h6, h7⟩ := C27_convert_columnar b _ lt hs ht _ hb calls hsound conv hconv
  have := C27_slice_source_columnar b' lt ht _ (hashmap_middle ht h6 h7) s e hse (by rw [List.length_map]; exact he)
  have hm : ∀ f : Point → Point, sub (ps.map f) s e = (sub ps s e).map f := fun f => part_map ..
  rw [hm] at this
  exact ⟨v, w, b', _, h1, h2, h3, h4, h5, this.points⟩

end

/-! ### A concrete case

Two points of the layout `tightLayout`, converted to `roomyLayout`. -/

def tightRecords : List Bytes := [tightRecord, [0, 0, 0x80, 0x3F, 0, 0, 0, 0, 0, 0, 0, 0x3F, 5, 0, 7, 9]]

theorem tight_records_show : SourceShows (HashMapBuffer.ofRecords tightLayout tightRecords) tightLayout
    (tightRecords.map (pointOf tightLayout)) ∧ HashMapConsistent (HashMapBuffer.ofRecords tightLayout tightRecords) ∧
    SourceShows (Interleaved.ofRecords tightLayout tightRecords : VectorBuffer) tightLayout (tightRecords.map (pointOf tightLayout)) ∧
    VectorConsistent (Interleaved.ofRecords tightLayout tightRecords : VectorBuffer) := by
  have hl : AllLen tightLayout.size tightRecords := by
    intro r hr
    simp only [tightRecords, List.mem_cons, List.not_mem_nil, or_false] at hr
    rcases hr with rfl | rfl <;> rfl
  have hc := HashMapBuffer.ofRecords_inv tight_solid hl
  have hv := Interleaved.ofRecords_inv hl
  exact ⟨hashmap_middle tight_solid hc (HashMapBuffer.shows_points tight_solid hl), hc,
    vector_middle tight_solid hv (interleaved_shows_points tight_solid hl), hv⟩

/-- The hypotheses are met; the second point alone, filtered before or after the conversion. -/
example : (∃ conv, Built tightLayout roomyLayout [] conv) ∧
    (do let f ← (HashMapBuffer.ofRecords tightLayout tightRecords).filterToHashMap (fun i => i = 1)
        let c ← BufferLayoutConverter.forLayoutsWithDefault tightLayout roomyLayout
        let r ← c.convert HashMapBuffer f
        pure r.columns) =
      .ok [(⟨"x", .u8⟩, [0]), (⟨"k", .f64⟩, [0, 0, 0, 0, 0, 0, 0x14, 0x40]),
        (⟨"p", .vec3f64⟩, [0, 0, 0, 0, 0, 0, 0xF0, 0x3F, 0, 0, 0, 0, 0, 0, 0, 0, 0, 0, 0, 0, 0, 0, 0xE0, 0x3F]),
        (⟨"c", .i8⟩, [7])] ∧
    (do let c ← BufferLayoutConverter.forLayoutsWithDefault tightLayout roomyLayout
        let b ← c.convert HashMapBuffer (HashMapBuffer.ofRecords tightLayout tightRecords)
        let r ← b.filterToHashMap (fun i => i = 1)
        pure r.columns) =
      .ok [(⟨"x", .u8⟩, [0]), (⟨"k", .f64⟩, [0, 0, 0, 0, 0, 0, 0x14, 0x40]),
        (⟨"p", .vec3f64⟩, [0, 0, 0, 0, 0, 0, 0xF0, 0x3F, 0, 0, 0, 0, 0, 0, 0, 0, 0, 0, 0, 0, 0, 0, 0xE0, 0x3F]),
        (⟨"c", .i8⟩, [7])] := by
  refine ⟨?_, by decide +kernel, by decide +kernel⟩
  obtain ⟨c, hc⟩ := (C28_with_default tightLayout roomyLayout roomy_solid).1.2 (by decide +kernel)
  exact ⟨c, c, .inr hc, rfl⟩

end Pasture.Props
