import Verif.Lemmas.LasReader
import Verif.Props.LasRecords
import Verif.Props.LasExtraBytes

/-!
# C38 (reading in pieces) and C39 (seeking) for the LAS and LAZ readers, and the first half of C48
-/

namespace Pasture.Props

open Spec Las BorrowedBuffer

/-! ## C48, first half: `read` -/

/-- Buffers that can be made, resized and read into. -/
class ReadOwner (β : Type) [OwningBuffer β] [AsMemoryMut β] [MakeBufferFromLayout β] extends ReadTarget β where
  fresh : ∀ {l : PointLayout}, Solid l → ∀ n : Nat,
    Consistent (OwningBuffer.resize (MakeBufferFromLayout.newFromLayout l : β) n) ∧
      ShowsPoints (OwningBuffer.resize (MakeBufferFromLayout.newFromLayout l : β) n) l
        (List.replicate n (zeroPoint l))
  resized : ∀ {l : PointLayout}, Solid l → ∀ {b : β}, Consistent b → ∀ {ps : List Point}, ShowsPoints b l ps →
    ∀ n : Nat, Consistent (OwningBuffer.resize b n) ∧
      ShowsPoints (OwningBuffer.resize b n) l (Spec.resized ps n (zeroPoint l))

theorem resized_map {α γ : Type} (f : α → γ) (xs : List α) (n : Nat) (z : α) :
    (Spec.resized xs n z).map f = Spec.resized (xs.map f) n (f z) := by
  simp [Spec.resized]

theorem resized_allLen {sz : Nat} {rs : List Bytes} (h : AllLen sz rs) (n : Nat) :
    AllLen sz (Spec.resized rs n (List.replicate sz 0)) := by
  unfold Spec.resized
  exact (h.take _).append (AllLen.replicate (by simp) _)

instance vectorOwner : ReadOwner VectorBuffer where
  fresh := by
    intro l hl n
    have := resize_records (β := VectorBuffer) hl (AllLen.nil (sz := l.size)) n
    rw [show OwningBuffer.resize (MakeBufferFromLayout.newFromLayout l : VectorBuffer) n = _ from this]
    have hall := resized_allLen (AllLen.nil (sz := l.size)) n
    refine ⟨hall.flatten_length, ?_⟩
    have hs := interleaved_shows_points hl hall
    rw [resized_map, pointOf_zeros hl, show Spec.resized (List.map (pointOf l) []) n (zeroPoint l) =
      List.replicate n (zeroPoint l) by simp [Spec.resized]] at hs
    exact hs
  resized := by
    intro l hl b hb ps hp n
    have hbl : b.layout = l := hp.layout_eq
    have hall := Interleaved.records_allLen hb
    have e := Interleaved.ofRecords_records hb
    rw [hbl] at hall e
    have hsh := interleaved_shows_points hl hall
    rw [e] at hsh
    have hqs := showsPoints_unique hp hsh
    subst hqs
    have := resize_records (β := VectorBuffer) hl hall n
    rw [show (HoldsRecords.ofRecords l b.records : VectorBuffer) = b from e] at this
    rw [this]
    have hall' := resized_allLen hall n
    refine ⟨hall'.flatten_length, ?_⟩
    have hs := interleaved_shows_points hl hall'
    rw [resized_map, pointOf_zeros hl] at hs
    exact hs

instance hashMapOwner : ReadOwner HashMapBuffer where
  fresh := by
    intro l hl n
    have := resize_records (β := HashMapBuffer) hl (AllLen.nil (sz := l.size)) n
    rw [show OwningBuffer.resize (MakeBufferFromLayout.newFromLayout l : HashMapBuffer) n = _ from this]
    have hall := resized_allLen (AllLen.nil (sz := l.size)) n
    refine ⟨HashMapBuffer.ofRecords_inv hl hall, ?_⟩
    have hs := HashMapBuffer.shows_points hl hall
    rw [resized_map, pointOf_zeros hl, show Spec.resized (List.map (pointOf l) []) n (zeroPoint l) =
      List.replicate n (zeroPoint l) by simp [Spec.resized]] at hs
    exact hs
  resized := by
    intro l hl b hb ps hp n
    have hbl : b.layout = l := hp.layout_eq
    obtain ⟨rs, hall, _, e⟩ := HashMapBuffer.exists_records (hbl ▸ hl) hb
    rw [hbl] at hall e
    have hsh := HashMapBuffer.shows_points hl hall
    rw [← e] at hsh
    have hqs := showsPoints_unique hp hsh
    subst hqs
    have := resize_records (β := HashMapBuffer) hl hall n
    rw [show (HoldsRecords.ofRecords l rs : HashMapBuffer) = b from e.symm] at this
    rw [this]
    have hall' := resized_allLen hall n
    refine ⟨HashMapBuffer.ofRecords_inv hl hall', ?_⟩
    have hs := HashMapBuffer.shows_points hl hall'
    rw [resized_map, pointOf_zeros hl] at hs
    exact hs

theorem read_generic {β : Type} [OwningBuffer β] [AsMemoryMut β] [MakeBufferFromLayout β] [ReadOwner β]
    {ρ : Type} [PointReader ρ] (r : ρ) (n : Nat) (hl : Solid (PointReader.defaultLayout r)) (k : Nat) (b : β)
    (r' : ρ) (ps : List Point)
    (hread : PointReader.readInto r
      (OwningBuffer.resize (MakeBufferFromLayout.newFromLayout (PointReader.defaultLayout r) : β) n) n = .ok (k, b, r'))
    (hb : ReadTarget.Consistent b) (hps : ShowsPoints b (PointReader.defaultLayout r) ps) (hk : k ≤ ps.length) :
    ∃ b', readPoints β r n = .ok (b', r') ∧ ReadTarget.Consistent b' ∧
      ShowsPoints b' (PointReader.defaultLayout r) (ps.take k) := by
  obtain ⟨h1, h2⟩ := ReadOwner.resized hl hb hps k
  refine ⟨_, ?_, h1, ?_⟩
  · unfold readPoints
    show (PointReader.readInto _ _ _).bind _ = _
    rw [hread]
    rfl
  · have : Spec.resized ps k (zeroPoint (PointReader.defaultLayout r)) = ps.take k := by
      unfold Spec.resized
      rw [Nat.sub_eq_zero_of_le hk]
      simp
    rwa [this] at h2

/-- **C48 in part** (`read`, interleaved): whatever the reader delivered into a buffer for `n` points, `k` of them
    being read, is what `read` returns: exactly `k` points. -/
theorem C48_read_interleaved_partial {ρ : Type} [PointReader ρ] (r : ρ) (n : Nat)
    (hl : Solid (PointReader.defaultLayout r)) (k : Nat) (b : VectorBuffer) (r' : ρ) (ps : List Point)
    (hread : PointReader.readInto r
      (OwningBuffer.resize (MakeBufferFromLayout.newFromLayout (PointReader.defaultLayout r)) n) n = .ok (k, b, r'))
    (hb : VectorConsistent b) (hps : ShowsPoints b (PointReader.defaultLayout r) ps) (hk : k ≤ ps.length) :
    ∃ b', readPoints VectorBuffer r n = .ok (b', r') ∧ VectorConsistent b' ∧
      ShowsPoints b' (PointReader.defaultLayout r) (ps.take k) :=
  read_generic r n hl k b r' ps hread hb hps hk

/-- **C48 in part** (`read`, columnar). -/
theorem C48_read_columnar_partial {ρ : Type} [PointReader ρ] (r : ρ) (n : Nat)
    (hl : Solid (PointReader.defaultLayout r)) (k : Nat) (b : HashMapBuffer) (r' : ρ) (ps : List Point)
    (hread : PointReader.readInto r
      (OwningBuffer.resize (MakeBufferFromLayout.newFromLayout (PointReader.defaultLayout r)) n) n = .ok (k, b, r'))
    (hb : HashMapConsistent b) (hps : ShowsPoints b (PointReader.defaultLayout r) ps) (hk : k ≤ ps.length) :
    ∃ b', readPoints HashMapBuffer r n = .ok (b', r') ∧ HashMapConsistent b' ∧
      ShowsPoints b' (PointReader.defaultLayout r) (ps.take k) :=
  read_generic r n hl k b r' ps hread hb hps hk

/-! ## C38 -/

section
variable {β : Type} [BorrowedMutBuffer β] [AsMemoryMut β] [ReadTarget β]

theorem default_correct {σ : Type} [RecordSource σ] [StoresRecords σ] [LawfulSource σ] {r : RawReader σ}
    {recs : List Bytes} {i : Nat} (h : Standing r recs i) {b : β} (hb : ReadTarget.Consistent b)
    {qs : List Point} (hq : ShowsPoints b r.recordsLayout qs) {count : Nat} (hc : count ≤ qs.length) :
    ReadCorrectly r recs i r.recordsLayout qs count ReadTarget.Consistent (r.readIntoDefaultLayout b count) := by
  obtain ⟨b', r', h1, h2, h3, h4, h5⟩ := ReadTarget.readDefault h hb hq hc
  refine ⟨b', r', h1, h2, h3, h4, ?_⟩
  rw [readOver_same _ _ _ _ (by simp; omega)]
  exact h5

theorem las_read_into {r : RawLasReader} {recs : List Bytes} {i : Nat} (h : Standing r recs i)
    {target : PointLayout} (ht : Solid target)
    (hr : target = r.recordsLayout ∨ Readable r.recordsLayout target r.transforms) {b : β}
    (hb : ReadTarget.Consistent b) {qs : List Point} (hq : ShowsPoints b target qs) {count : Nat}
    (hc : count ≤ qs.length) :
    ReadCorrectly r recs i target qs count ReadTarget.Consistent (PointReader.readInto r b count) := by
  have hlen := hq.len_eq
  have hlay := hq.layout_eq
  show ReadCorrectly r recs i target qs count ReadTarget.Consistent
    (if len b < count then panicked
      else if layout b ≠ r.recordsLayout then r.readIntoCustomLayout b count
      else r.readIntoDefaultLayout b count)
  rw [if_neg (by omega), hlay]
  by_cases he : target = r.recordsLayout
  · rw [if_neg (by simpa using he)]
    rw [he] at hq ⊢
    exact default_correct h hb hq hc
  · rw [if_pos he]
    exact custom_chunked h ht he (hr.resolve_left he) hb hq hc

theorem laz_read_into {r : RawLazReader} {recs : List Bytes} {i : Nat} (h : Standing r recs i)
    {target : PointLayout} (ht : Solid target)
    (hr : target = r.recordsLayout ∨ Readable r.recordsLayout target r.transforms) {b : β}
    (hb : ReadTarget.Consistent b) {qs : List Point} (hq : ShowsPoints b target qs) {count : Nat}
    (hc : count ≤ qs.length) :
    ReadCorrectly r recs i target qs count ReadTarget.Consistent (PointReader.readInto r b count) := by
  have hlen := hq.len_eq
  have hlay := hq.layout_eq
  show ReadCorrectly r recs i target qs count ReadTarget.Consistent
    (if len b < count then panicked
      else if layout b ≠ r.recordsLayout then r.readIntoCustomLayoutAtOnce b count
      else r.readIntoDefaultLayout b count)
  rw [if_neg (by omega), hlay]
  by_cases he : target = r.recordsLayout
  · rw [if_neg (by simpa using he)]
    rw [he] at hq ⊢
    exact default_correct h hb hq hc
  · rw [if_pos he]
    exact custom_at_once h ht he (hr.resolve_left he) hb hq hc

end

section
variable (recs : List Bytes) (i : Nat) (target : PointLayout) (ht : Solid target) (qs : List Point) (count : Nat)
  (hc : count ≤ qs.length)
include ht hc

/-- **C38 in part**, one call on a LAS reader, interleaved buffer of any readable layout: the next
    `min count remaining` records become the first points of the buffer, the rest of the buffer is as before,
    and the reader stands behind them. -/
theorem C38_las_read_into_interleaved_partial (r : RawLasReader) (h : Standing r recs i)
    (hr : target = r.recordsLayout ∨ Readable r.recordsLayout target r.transforms)
    (b : VectorBuffer) (hb : VectorConsistent b) (hq : ShowsPoints b target qs) :
    ReadCorrectly r recs i target qs count VectorConsistent (PointReader.readInto r b count) :=
  las_read_into h ht hr hb hq hc

/-- **C38 in part**, one call on a LAS reader, columnar buffer. -/
theorem C38_las_read_into_columnar_partial (r : RawLasReader) (h : Standing r recs i)
    (hr : target = r.recordsLayout ∨ Readable r.recordsLayout target r.transforms)
    (b : HashMapBuffer) (hb : HashMapConsistent b) (hq : ShowsPoints b target qs) :
    ReadCorrectly r recs i target qs count HashMapConsistent (PointReader.readInto r b count) :=
  las_read_into h ht hr hb hq hc

/-- **C38 in part**, one call on a LAZ reader, interleaved buffer. -/
theorem C38_laz_read_into_interleaved_partial (r : RawLazReader) (h : Standing r recs i)
    (hr : target = r.recordsLayout ∨ Readable r.recordsLayout target r.transforms)
    (b : VectorBuffer) (hb : VectorConsistent b) (hq : ShowsPoints b target qs) :
    ReadCorrectly r recs i target qs count VectorConsistent (PointReader.readInto r b count) :=
  laz_read_into h ht hr hb hq hc

/-- **C38 in part**, one call on a LAZ reader, columnar buffer. -/
theorem C38_laz_read_into_columnar_partial (r : RawLazReader) (h : Standing r recs i)
    (hr : target = r.recordsLayout ∨ Readable r.recordsLayout target r.transforms)
    (b : HashMapBuffer) (hb : HashMapConsistent b) (hq : ShowsPoints b target qs) :
    ReadCorrectly r recs i target qs count HashMapConsistent (PointReader.readInto r b count) :=
  laz_read_into h ht hr hb hq hc

end

/-- A buffer shorter than `count` is refused. -/
theorem C38_short_buffer {β : Type} [BorrowedMutBuffer β] [AsMemoryMut β] (b : β) (count : Nat)
    (h : len b < count) (r : RawLasReader) (r' : RawLazReader) :
    PointReader.readInto r b count = .error .panic ∧ PointReader.readInto r' b count = .error .panic := by
  constructor
  · show (if len b < count then panicked else _) = _
    rw [if_pos h]; rfl
  · show (if len b < count then panicked else _) = _
    rw [if_pos h]; rfl

/-- A layout the records cannot be read as is refused by the LAS reader, unless there is nothing to read. -/
theorem C38_unreadable (r : RawLasReader) (recs : List Bytes) (i : Nat) (h : Standing r recs i)
    {β : Type} [BorrowedMutBuffer β] [AsMemoryMut β] (b : β) (ht : Solid (layout b)) (count : Nat)
    (hne : layout b ≠ r.recordsLayout) (hr : ¬ Readable r.recordsLayout (layout b) r.transforms)
    (hc : 0 < count) (hi : i < recs.length) :
    PointReader.readInto r b count = .error .panic ∨ PointReader.readInto r b count = .error .err := by
  have hrd : PointReader.readInto r b count = if len b < count then panicked
      else if layout b ≠ r.recordsLayout then r.readIntoCustomLayout b count
      else r.readIntoDefaultLayout b count := rfl
  rw [hrd]
  by_cases hl : len b < count
  · rw [if_pos hl]; exact .inl rfl
  · rw [if_neg hl, if_pos hne]
    unfold RawReader.readIntoCustomLayout
    simp only [standing_remaining h]
    have hpos : 0 < r.recordsLayout.size := by rw [h.described]; exact standing_pos h
    have hper : 0 < 2 ^ 20 / r.recordsLayout.size := Nat.div_pos (by have := h.short; rw [h.described]; omega) hpos
    rw [if_neg (by omega)]
    show (assertThat _).bind _ = _ ∨ (assertThat _).bind _ = _
    rw [assertThat_true (decide_eq_true (by omega))]
    show (assertThat _).bind _ = _ ∨ (assertThat _).bind _ = _
    rw [assertThat_true (decide_eq_true (by omega))]
    show (defaultConverter _ _ _).bind _ = _ ∨ (defaultConverter _ _ _).bind _ = _
    rcases defaultConverter_fails (t := r.transforms) ht hr with e | e
    · rw [e]; exact .inl rfl
    · rw [e]; exact .inr rfl

/-! ## C39 -/

theorem wrap_i64 {z : Int} (h1 : -2 ^ 63 ≤ z) (h2 : z < 2 ^ 63) : wrapInt .i64 z = z := by
  obtain ⟨g1, g2, g3⟩ := wrapInt_spec (p := .i64) rfl z
  simp only [Prim.lo, Prim.hi, Prim.size] at g1 g2 g3
  omega

theorem wrap_u64 {z : Int} (h1 : 0 ≤ z) (h2 : z < 2 ^ 64) : wrapInt .u64 z = z := by
  obtain ⟨g1, g2, g3⟩ := wrapInt_spec (p := .u64) rfl z
  simp only [Prim.lo, Prim.hi, Prim.size] at g1 g2 g3
  omega

/-- Outside the range of `i64`, on the side of large numbers. -/
theorem wrap_i64_over {z : Int} (h1 : 2 ^ 63 ≤ z) (h2 : z < 2 ^ 64) : wrapInt .i64 z < 0 := by
  obtain ⟨g1, g2, g3⟩ := wrapInt_spec (p := .i64) rfl z
  simp only [Prim.lo, Prim.hi, Prim.size] at g1 g2 g3
  omega

theorem seek_target {σ : Type} [StoresRecords σ] (r : RawReader σ) (recs : List Bytes) (i : Nat) (h : Standing r recs i)
    (hn : recs.length < 2 ^ 63) (p : SeekFrom) :
    r.newPosition p = wrapInt .i64 (p.wanted recs.length i) := by
  have hin := h.inside
  cases p with
  | start n => rfl
  | fromEnd k =>
    simp only [RawReader.newPosition, SeekFrom.wanted]
    rw [h.count, wrap_i64 (z := recs.length) (by omega) (by omega)]
  | current k =>
    simp only [RawReader.newPosition, SeekFrom.wanted]
    rw [h.index, wrap_i64 (z := i) (by omega) (by omega)]

section
variable {σ : Type} [RecordSource σ] [StoresRecords σ]

/-- **C39 in part**: a seek to an index below 2^63 goes there, or to the end if that is nearer, returns the new
    index, and the reader stands before that record (so the next read, by C38, starts with it). Missing: targets
    of 2^63 and more, which panic instead of being clamped (`C39_large_panics`). -/
theorem C39_seek_partial [LawfulSource σ] (r : RawReader σ) (recs : List Bytes) (i : Nat) (h : Standing r recs i)
    (hn : recs.length < 2 ^ 63) (p : SeekFrom) (h0 : 0 ≤ p.wanted recs.length i)
    (h1 : p.wanted recs.length i < 2 ^ 63) :
    ∃ r', SeekToPoint.seekPoint r p = .ok (min (p.wanted recs.length i).toNat recs.length, r') ∧ SameFile r r' ∧
      Standing r' recs (min (p.wanted recs.length i).toNat recs.length) := by
  show ∃ r', RawReader.seekPoint r p = _ ∧ _
  unfold RawReader.seekPoint
  rw [seek_target r recs i h hn p, wrap_i64 (by omega) h1, h.count, wrap_i64 (by omega) (by omega)]
  generalize hw : p.wanted recs.length i = w at h0 h1
  simp only
  rw [if_neg (by omega), wrap_u64 (by omega) (by omega), show (min (recs.length : Int) w).toNat =
    min w.toNat recs.length by omega]
  by_cases he : r.currentPointIndex = min w.toNat recs.length
  · rw [if_neg (by simpa using he), ← he]
    refine ⟨r, rfl, sameFile_refl r, ?_⟩
    rw [h.index]
    exact h
  · rw [if_pos he]
    refine ⟨_, rfl, ⟨h.count.symm, rfl, rfl, rfl, rfl, rfl⟩, ?_⟩
    exact ⟨LawfulSource.seek_ok h.stored, rfl, rfl, by omega, h.sizes, h.described, h.short, h.solid⟩

/-- Targets before the first point are refused. -/
theorem C39_before_start (r : RawReader σ) (recs : List Bytes) (i : Nat) (h : Standing r recs i)
    (hn : recs.length < 2 ^ 63) (p : SeekFrom) (hv : p.valid) (h0 : p.wanted recs.length i < 0) :
    SeekToPoint.seekPoint r p = .error .panic := by
  have hin := h.inside
  have hlow : -2 ^ 63 ≤ p.wanted recs.length i := by
    cases p with
    | start n => simp only [SeekFrom.wanted] at h0 ⊢; omega
    | fromEnd k => simp only [SeekFrom.wanted, SeekFrom.valid] at hv ⊢; omega
    | current k => simp only [SeekFrom.wanted, SeekFrom.valid] at hv ⊢; omega
  show RawReader.seekPoint r p = _
  unfold RawReader.seekPoint
  rw [seek_target r recs i h hn p, wrap_i64 hlow (by omega)]
  simp only
  rw [if_pos h0]
  rfl

/-- The part of C39 that does not hold: a target past the last point is not clamped, but refused like a
    negative one, if it is 2^63 or more. -/
theorem C39_large_panics (r : RawReader σ) (recs : List Bytes) (i : Nat) (h : Standing r recs i)
    (hn : recs.length < 2 ^ 63) (p : SeekFrom) (hv : p.valid) (h0 : 2 ^ 63 ≤ p.wanted recs.length i) :
    SeekToPoint.seekPoint r p = .error .panic := by
  have hin := h.inside
  have hhigh : p.wanted recs.length i < 2 ^ 64 := by
    cases p with
    | start n => simp only [SeekFrom.wanted, SeekFrom.valid] at hv ⊢; omega
    | fromEnd k => simp only [SeekFrom.wanted, SeekFrom.valid] at hv ⊢; omega
    | current k => simp only [SeekFrom.wanted, SeekFrom.valid] at hv ⊢; omega
  show RawReader.seekPoint r p = _
  unfold RawReader.seekPoint
  rw [seek_target r recs i h hn p]
  simp only
  rw [if_pos (wrap_i64_over h0 hhigh)]
  rfl

/-- `point_index` is the index of the next point and changes nothing. -/
theorem C39_point_index (r : RawReader σ) (recs : List Bytes) (i : Nat) (h : Standing r recs i)
    (hn : recs.length < 2 ^ 63) : pointIndex r = .ok (i, r) := by
  have hin := h.inside
  show RawReader.seekPoint r (.current 0) = _
  unfold RawReader.seekPoint
  rw [seek_target r recs i h hn (.current 0)]
  simp only [SeekFrom.wanted, Int.add_zero]
  rw [wrap_i64 (by omega) (by omega), h.count, wrap_i64 (by omega) (by omega), if_neg (by omega),
    wrap_u64 (by omega) (by omega), h.index, show (min (recs.length : Int) i).toNat = i by omega]
  simp [h.index, pure, Except.pure]

/-- `point_count` is the number of points; the reader stands where it stood. -/
theorem C39_point_count [LawfulSource σ] (r : RawReader σ) (recs : List Bytes) (i : Nat) (h : Standing r recs i)
    (hn : recs.length < 2 ^ 63) :
    ∃ r', pointCount r = .ok (recs.length, r') ∧ SameFile r r' ∧ Standing r' recs i := by
  have hin := h.inside
  unfold pointCount
  rw [C39_point_index r recs i h hn]
  obtain ⟨r₁, h1, h2, h3⟩ := C39_seek_partial r recs i h hn (.fromEnd 0) (by simp only [SeekFrom.wanted]; omega)
    (by simp only [SeekFrom.wanted]; omega)
  have e1 : min ((SeekFrom.fromEnd 0).wanted recs.length i).toNat recs.length = recs.length := by
    simp only [SeekFrom.wanted]; omega
  rw [e1] at h1 h3
  obtain ⟨r₂, g1, g2, g3⟩ := C39_seek_partial r₁ recs recs.length h3 hn (.start i)
    (by simp only [SeekFrom.wanted]; omega) (by simp only [SeekFrom.wanted]; omega)
  have e2 : min ((SeekFrom.start i).wanted recs.length recs.length).toNat recs.length = i := by
    simp only [SeekFrom.wanted]; omega
  rw [e2] at g1 g3
  refine ⟨r₂, ?_, ?_, g3⟩
  · show (SeekToPoint.seekPoint r _).bind _ = _
    rw [h1]
    show (SeekToPoint.seekPoint r₁ _).bind _ = _
    rw [g1]
    rfl
  · obtain ⟨a1, a2, a3, a4, a5, a6⟩ := h2
    obtain ⟨b1, b2, b3, b4, b5, b6⟩ := g2
    exact ⟨b1.trans a1, b2.trans a2, b3.trans a3, b4.trans a4, b5.trans a5, b6.trans a6⟩

end

/-! ## C38 for sequences of calls -/

/-- Both readers. -/
class CorrectReader (σ : Type) [RecordSource σ] [StoresRecords σ] [PointReader (RawReader σ)] : Prop where
  layout_eq : ∀ r : RawReader σ, PointReader.defaultLayout r = r.layout
  correct : ∀ {β : Type} [BorrowedMutBuffer β] [AsMemoryMut β] [ReadTarget β] {r : RawReader σ}
    {recs : List Bytes} {i : Nat}, Standing r recs i → ∀ {target : PointLayout}, Solid target →
    (target = r.recordsLayout ∨ Readable r.recordsLayout target r.transforms) → ∀ {b : β},
    ReadTarget.Consistent b → ∀ {qs : List Point}, ShowsPoints b target qs → ∀ {count : Nat}, count ≤ qs.length →
    ReadCorrectly r recs i target qs count (ReadTarget.Consistent (β := β)) (PointReader.readInto r b count)

instance correctLas : CorrectReader Stream := ⟨fun _ => rfl, las_read_into⟩
instance correctLaz : CorrectReader LazStream := ⟨fun _ => rfl, laz_read_into⟩

/-- The point a record is read as in a fresh buffer: attributes without a source are zero. -/
def freshPoint {σ : Type} (r : RawReader σ) (rec : Bytes) : Point :=
  readPoint r.recordsLayout r.layout r.transforms rec (zeroPoint r.layout)

theorem readOver_fresh (raw target : PointLayout) (t : Transforms) (recs : List Bytes) (n : Nat)
    (h : recs.length ≤ n) (z : Point) :
    (readOver raw target t recs (List.replicate n z)).take recs.length =
      recs.map fun rec => readPoint raw target t rec z := by
  apply List.ext_getElem?
  intro j
  by_cases hj : j < recs.length
  · rw [List.getElem?_take_of_lt hj]
    unfold readOver
    rw [List.getElem?_mapIdx, List.getElem?_replicate, if_pos (by omega), List.getElem?_map,
      List.getElem?_eq_getElem hj]
    rfl
  · rw [List.getElem?_eq_none (by simp; omega), List.getElem?_eq_none (by simp; omega)]

section
variable {σ : Type} [RecordSource σ] [StoresRecords σ] [LawfulSource σ] [PointReader (RawReader σ)] [CorrectReader σ]
variable {β : Type} [OwningBuffer β] [AsMemoryMut β] [MakeBufferFromLayout β] [ReadOwner β]

omit [LawfulSource σ] in
theorem read_step (r : RawReader σ) (recs : List Bytes) (i : Nat) (h : Standing r recs i) (hl : Solid r.layout)
    (hr : r.layout = r.recordsLayout ∨ Readable r.recordsLayout r.layout r.transforms) (n : Nat) :
    ∃ (b : β) (r' : RawReader σ), readPoints β r n = .ok (b, r') ∧ SameFile r r' ∧
      Standing r' recs (i + min n (recs.length - i)) ∧ ReadTarget.Consistent b ∧
      ShowsPoints b r.layout (((recs.drop i).take n).map (freshPoint r)) := by
  obtain ⟨f1, f2⟩ := ReadOwner.fresh (β := β) hl n
  obtain ⟨b, r', h1, h2, h3, h4, h5⟩ := CorrectReader.correct h hl hr f1 f2 (count := n) (by simp)
  have e := CorrectReader.layout_eq r
  have hk : min n (recs.length - i) = ((recs.drop i).take n).length := by simp
  obtain ⟨b', g1, g2, g3⟩ := read_generic (β := β) r n (e ▸ hl) (min n (recs.length - i)) b r' _ (e ▸ h1) h4
    (by rw [e]; exact h5) (by rw [readOver_length]; simp)
  refine ⟨b', r', g1, h2, h3, g2, ?_⟩
  rw [hk, readOver_fresh _ _ _ _ _ (by simp), e] at g3
  exact g3

theorem session_generic : ∀ (calls : List ReaderCall) (r : RawReader σ) (recs : List Bytes) (i : Nat),
    Standing r recs i → Solid r.layout →
    (r.layout = r.recordsLayout ∨ Readable r.recordsLayout r.layout r.transforms) → recs.length < 2 ^ 63 →
    seeksInRange recs.length i calls →
    ∃ bs, runCalls β r calls = .ok bs ∧ List.Forall₂ (fun b part => ShowsPoints b r.layout (part.map (freshPoint r)))
      bs (partsRead recs i calls) := by
  intro calls
  induction calls with
  | nil => intro r recs i _ _ _ _ _; exact ⟨[], rfl, .nil⟩
  | cons c calls ih =>
    intro r recs i h hl hr hn hs
    have same : ∀ r' : RawReader σ, SameFile r r' → Solid r'.layout ∧
        (r'.layout = r'.recordsLayout ∨ Readable r'.recordsLayout r'.layout r'.transforms) ∧
        r'.layout = r.layout ∧ freshPoint r' = freshPoint r := by
      rintro r' ⟨e1, e2, e3, e4, e5, e6⟩
      refine ⟨e3 ▸ hl, by rw [e2, e3, e4]; exact hr, e3, ?_⟩
      funext rec
      unfold freshPoint
      rw [e2, e3, e4]
    cases c with
    | read n =>
      obtain ⟨b, r', h1, h2, h3, _, h5⟩ := read_step (β := β) r recs i h hl hr n
      obtain ⟨s1, s2, s3, s4⟩ := same r' h2
      obtain ⟨bs, g1, g2⟩ := ih r' recs _ h3 s1 s2 hn hs
      refine ⟨b :: bs, ?_, ?_⟩
      · unfold runCalls
        rw [h1]
        show (runCalls β r' calls).bind _ = _
        rw [g1]
        rfl
      · rw [s3, s4] at g2
        exact .cons h5 g2
    | seek p =>
      obtain ⟨⟨h0, h1⟩, hs⟩ := hs
      obtain ⟨r', g1, g2, g3⟩ := C39_seek_partial r recs i h hn p h0 h1
      obtain ⟨s1, s2, s3, s4⟩ := same r' g2
      obtain ⟨bs, g4, g5⟩ := ih r' recs _ g3 s1 s2 hn hs
      refine ⟨bs, ?_, ?_⟩
      · unfold runCalls
        rw [g1]
        exact g4
      · rw [s3, s4] at g5
        exact g5

end

/-- **C38 in part**: for any sequence of `read` and `seek_point` calls on a LAS file, every `read` returns, as points of the
    reader's layout, the records from the current index on: as many as asked for, or all that remain.
    Missing: files with undescribed extra bytes (`C38_undescribed_violated`). -/
theorem C38_las_session_partial (r : RawLasReader) (recs : List Bytes) (i : Nat) (h : Standing r recs i)
    (hl : Solid r.layout) (hr : r.layout = r.recordsLayout ∨ Readable r.recordsLayout r.layout r.transforms)
    (hn : recs.length < 2 ^ 63) (calls : List ReaderCall) (hs : seeksInRange recs.length i calls) :
    (∃ bs, runCalls VectorBuffer r calls = .ok bs ∧
      List.Forall₂ (fun b part => ShowsPoints b r.layout (part.map (freshPoint r))) bs (partsRead recs i calls)) ∧
    (∃ bs, runCalls HashMapBuffer r calls = .ok bs ∧
      List.Forall₂ (fun b part => ShowsPoints b r.layout (part.map (freshPoint r))) bs (partsRead recs i calls)) :=
  ⟨session_generic calls r recs i h hl hr hn hs, session_generic calls r recs i h hl hr hn hs⟩

/-- **C38 in part**, LAZ files. -/
theorem C38_laz_session_partial (r : RawLazReader) (recs : List Bytes) (i : Nat) (h : Standing r recs i)
    (hl : Solid r.layout) (hr : r.layout = r.recordsLayout ∨ Readable r.recordsLayout r.layout r.transforms)
    (hn : recs.length < 2 ^ 63) (calls : List ReaderCall) (hs : seeksInRange recs.length i calls) :
    (∃ bs, runCalls VectorBuffer r calls = .ok bs ∧
      List.Forall₂ (fun b part => ShowsPoints b r.layout (part.map (freshPoint r))) bs (partsRead recs i calls)) ∧
    (∃ bs, runCalls HashMapBuffer r calls = .ok bs ∧
      List.Forall₂ (fun b part => ShowsPoints b r.layout (part.map (freshPoint r))) bs (partsRead recs i calls)) :=
  ⟨session_generic calls r recs i h hl hr hn hs, session_generic calls r recs i h hl hr hn hs⟩

/-- The pieces of consecutive reads, put together, are the records of one read of the total length; so reading in
    pieces is reading at once. -/
theorem C38_pieces (recs : List Bytes) : ∀ (ns : List Nat) (i : Nat),
    (partsRead recs i (ns.map .read)).flatten = (recs.drop i).take ns.sum := by
  intro ns
  induction ns with
  | nil => intro i; simp [partsRead]
  | cons n ns ih =>
    intro i
    simp only [List.map_cons, partsRead, List.flatten_cons, ih, List.sum_cons]
    rw [List.take_add, List.drop_drop]
    congr 1
    by_cases h : n ≤ recs.length - i
    · rw [Nat.min_eq_left h]
    · rw [Nat.min_eq_right (by omega), List.drop_eq_nil_of_le (by omega), List.drop_eq_nil_of_le (by omega)]

/-- What was read and what remains is the point count. -/
theorem C38_remaining {σ : Type} [RecordSource σ] [StoresRecords σ] (r : RawReader σ) (recs : List Bytes) (i : Nat)
    (h : Standing r recs i) : i + r.remainingPoints = recs.length ∧ r.pointCount = recs.length := by
  have := h.inside
  rw [standing_remaining h]
  exact ⟨by omega, h.count⟩

/-! ## C38 from opening a file on -/

instance (l : PointLayout) : Decidable (Solid l) :=
  decidable_of_iff (l.attributes ≠ [] ∧ (l.attributes.map Member.name).Nodup ∧ (∀ m ∈ l.attributes, 0 < m.size) ∧
    (∀ m ∈ l.attributes, m.offset + m.size ≤ l.size) ∧ l.attributes.Pairwise
      fun a b => a.offset + a.size ≤ b.offset ∨ b.offset + b.size ≤ a.offset)
    ⟨fun ⟨a, b, c, d, e⟩ => ⟨a, b, c, d, e⟩, fun ⟨a, b, c, d, e⟩ => ⟨a, b, c, d, e⟩⟩

instance (l : PointLayout) (n : String) : Decidable (named l n) := by unfold named; infer_instance

instance (c : MappingCall) : Decidable c.typed :=
  match c with
  | .plain _ _ => isTrue trivial
  | .transformed s _ ty _ true => inferInstanceAs (Decidable (ty = s.datatype))
  | .transformed _ t ty _ false => inferInstanceAs (Decidable (ty = t.datatype))

instance (a b : PointLayout) (c : MappingCall) : Decidable (c.allowed a b) := by
  unfold MappingCall.allowed; infer_instance

instance (a b : PointLayout) (t : Transforms) : Decidable (Readable a b t) := by
  unfold Readable; infer_instance

theorem format_layouts (n : Nat) (hn : n ≤ 10) (exact : Bool) (t : Transforms) :
    ∃ f l raw, Format.new n = .ok f ∧ pointLayoutFromMetadata ⟨f, none⟩ exact = .ok l ∧
      pointLayoutFromMetadata ⟨f, none⟩ true = .ok raw ∧ raw.size = lasRecordLength n ∧ lasRecordLength n < 2 ^ 16 ∧
      Solid raw ∧ Solid l ∧ (l = raw ∨ Readable raw l t) ∧ (f.isExtended && f.hasWaveform) = decide (9 ≤ n) := by
  have key : ∀ (n : Fin 11) (exact : Bool), ∃ f l raw, Format.new n = .ok f ∧ pointLayoutFromMetadata ⟨f, none⟩ exact = .ok l ∧
      pointLayoutFromMetadata ⟨f, none⟩ true = .ok raw ∧ raw.size = lasRecordLength n ∧ lasRecordLength n < 2 ^ 16 ∧
      Solid raw ∧ Solid l ∧ (l = raw ∨ Readable raw l t) ∧ (f.isExtended && f.hasWaveform) = decide (9 ≤ n.val) := by
    intro n exact
    cases exact
    · match n with
      | 0 | 1 | 2 | 3 | 4 | 5 | 6 | 7 | 8 | 9 | 10 =>
        exact ⟨_, _, _, rfl, rfl, rfl, by decide, by decide, by decide +kernel, by decide +kernel, .inr (of_decide_eq_true (by rfl)), rfl⟩
    · match n with
      | 0 | 1 | 2 | 3 | 4 | 5 | 6 | 7 | 8 | 9 | 10 =>
        exact ⟨_, _, _, rfl, rfl, rfl, by decide, by decide, by decide +kernel, by decide +kernel, .inl rfl, rfl⟩
  exact key ⟨n, by omega⟩ exact

/-- C38, opening: a file of any point format, without extra bytes, opens to a reader before its first record, whose
    layout can be read; with this every theorem above applies to it. -/
theorem C38_open_las (n : Nat) (hn : n ≤ 10) (exact : Bool) (t : Transforms) (recs : List Bytes)
    (hlen : ∀ rec ∈ recs, rec.length = lasRecordLength n) (data : Bytes) (offset : Nat)
    (hdata : window data offset (recs.length * lasRecordLength n) = recs.flatten) :
    ∃ f r, Format.new n = .ok f ∧
      openLas data ⟨f, none⟩ recs.length t offset (lasRecordLength n) exact = .ok r ∧ Standing r recs 0 ∧
      Solid r.layout ∧ (r.layout = r.recordsLayout ∨ Readable r.recordsLayout r.layout r.transforms) := by
  obtain ⟨f, l, raw, h1, h2, h3, h4, h5, h6, h7, h8, _⟩ := format_layouts n hn exact t
  refine ⟨f, ⟨⟨data, offset⟩, recs.length, t, l, raw, 0, offset, lasRecordLength n⟩, h1, ?_, ?_, h7, h8⟩
  · unfold openLas RawReader.ofHeader
    rw [h2, h3]
    rfl
  · exact ⟨⟨hdata, by simp⟩, rfl, rfl, Nat.zero_le _, hlen, h4, h5, h6⟩

/-- The same for files with more records than the header counts: those are never read. -/
theorem C38_open_laz_more (n : Nat) (hn : n ≤ 10) (exact : Bool) (t : Transforms) (recs : List Bytes)
    (hlen : ∀ rec ∈ recs, rec.length = lasRecordLength n) (more : List Bytes) (offset : Nat) :
    ∃ f, Format.new n = .ok f ∧
      (9 ≤ n → openLaz (recs ++ more) ⟨f, none⟩ recs.length t offset (lasRecordLength n) exact = .error .err) ∧
      (n ≤ 8 → ∃ r, openLaz (recs ++ more) ⟨f, none⟩ recs.length t offset (lasRecordLength n) exact = .ok r ∧
        Standing r recs 0 ∧ Solid r.layout ∧
        (r.layout = r.recordsLayout ∨ Readable r.recordsLayout r.layout r.transforms)) := by
  obtain ⟨f, l, raw, h1, h2, h3, h4, h5, h6, h7, h8, h9⟩ := format_layouts n hn exact t
  refine ⟨f, h1, ?_, ?_⟩
  · intro h
    unfold openLaz
    rw [h9, decide_eq_true h]
    rfl
  · intro h
    refine ⟨⟨⟨lasRecordLength n, recs ++ more, 0⟩, recs.length, t, l, raw, 0, offset, lasRecordLength n⟩, ?_, ?_, h7, h8⟩
    · unfold openLaz
      rw [h9, decide_eq_false (by omega)]
      unfold RawReader.ofHeader
      rw [h2, h3]
      rfl
    · exact ⟨⟨⟨more, rfl⟩, rfl, rfl⟩, rfl, rfl, Nat.zero_le _, hlen, h4, h5, h6⟩

/-- C38, opening a LAZ file: the same for formats 0 to 8; formats 9 and 10 are refused. -/
theorem C38_open_laz (n : Nat) (hn : n ≤ 10) (exact : Bool) (t : Transforms) (recs : List Bytes)
    (hlen : ∀ rec ∈ recs, rec.length = lasRecordLength n) (offset : Nat) :
    ∃ f, Format.new n = .ok f ∧
      (9 ≤ n → openLaz recs ⟨f, none⟩ recs.length t offset (lasRecordLength n) exact = .error .err) ∧
      (n ≤ 8 → ∃ r, openLaz recs ⟨f, none⟩ recs.length t offset (lasRecordLength n) exact = .ok r ∧
        Standing r recs 0 ∧ Solid r.layout ∧
        (r.layout = r.recordsLayout ∨ Readable r.recordsLayout r.layout r.transforms)) := by
  have := C38_open_laz_more n hn exact t recs hlen [] offset
  rwa [List.append_nil] at this

/-- Two records of format 0 with one extra byte each. -/
def twoRecords : List Bytes := [List.replicate 20 0 ++ [7], List.replicate 21 0]

/-- The part of C38 that does not hold: with extra bytes no VLR describes, records are longer than the layout
    says, and reading two points into an interleaved buffer of the exact layout reads 40 contiguous bytes
    instead of two records of 21: the second point starts with the extra byte of the first. -/
theorem C38_undescribed_violated (t : Transforms) :
    ∃ f r b r' rec, Format.new 0 = .ok f ∧
      openLas twoRecords.flatten (fileWith f 1 none) 2 t 0 21 true = .ok r ∧
      readPoints VectorBuffer r 2 = .ok (b, r') ∧
      InterleavedBuffer.getPointRef b 1 = .ok rec ∧ rec.head? = some 7 ∧
      twoRecords[1].head? = some 0 :=
  ⟨_, _, _, _, _, rfl, rfl, rfl, rfl, rfl, rfl⟩

/-! ## Concrete cases -/

/-- Three records of format 0 behind two other bytes; the reader stands before the second. -/
def threeRecords : List Bytes := [List.replicate 20 1, List.replicate 20 2, List.replicate 20 3]

example : window ([9, 9] ++ threeRecords.flatten) 2 (threeRecords.length * lasRecordLength 0) = threeRecords.flatten ∧
    ∀ rec ∈ threeRecords, rec.length = lasRecordLength 0 := by decide

/-- Read one, go to the last, read up to five, go back to the first, read two. -/
example : seeksInRange 3 0 [.read 1, .seek (.current 1), .read 5, .seek (.start 0), .read 2] ∧
    partsRead threeRecords 0 [.read 1, .seek (.current 1), .read 5, .seek (.start 0), .read 2] =
      [[List.replicate 20 1], [List.replicate 20 3], [List.replicate 20 1, List.replicate 20 2]] := by
  refine ⟨⟨⟨by decide, by decide⟩, ⟨by decide, by decide⟩, trivial⟩, by decide⟩

/-- A target that large. -/
example : (SeekFrom.start (2 ^ 63)).valid ∧ (2 : Int) ^ 63 ≤ (SeekFrom.start (2 ^ 63)).wanted 3 0 :=
  ⟨by unfold SeekFrom.valid; decide, by decide⟩

end Pasture.Props
