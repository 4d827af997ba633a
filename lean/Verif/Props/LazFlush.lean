import Verif.Model.LazFlush
import Verif.Lemmas.LasWriter

/-!
# C47: Flushing a LAZ writer
-/

namespace Pasture.Props
open Pasture.Las Pasture.Spec

/-- The next byte is written behind the last one. -/
def AtEnd (s : Stream) : Prop := s.pos = s.data.length

/-- A compressor that is done may write what it still has and change what it wrote, but does not make the file
    shorter, and leaves the stream at its end. -/
def Finishes (done : Stream → Stream) : Prop := ∀ s, AtEnd s → AtEnd (done s) ∧ s.data.length ≤ (done s).data.length

theorem write_end {s : Stream} (h : AtEnd s) (b : Bytes) : s.write b = ⟨s.data ++ b, s.data.length + b.length⟩ := by
  unfold AtEnd at h
  rw [write_shape s h.le, h, List.take_length, List.drop_eq_nil_of_le (by omega), List.append_nil]

theorem header_write (s : Stream) (b : Bytes) :
    ((s.seek 0).write b).seek s.pos = ⟨b ++ s.data.drop b.length, s.pos⟩ := by
  rw [write_shape (s.seek 0) (Nat.zero_le _)]
  simp [Stream.seek]

theorem finalize_twice (h : LasHeader) : h.finalize.finalize = h.finalize := by
  unfold LasHeader.finalize
  by_cases h1 : h.count > 2 ^ 32 - 1
  · rw [if_pos h1, if_pos h1]
  · rw [if_neg h1]
    by_cases h2 : h.format % 16 > 5
    · rw [if_pos h2, if_neg h1, if_pos h2]
    · rw [if_neg h2]
      dsimp only
      rw [if_neg h1, if_neg h2]

/-- **C47, the LAZ writer**: after a flush the file is the header, what the compressor wrote, and the extended records. -/
theorem C47_laz {encode : LasHeader → Bytes} {H : Nat} (hH : ∀ h, (encode h).length = H) {done : Stream → Stream}
    (hd : Finishes done) {f : LazFile} (he : AtEnd f.stream) (hl : H ≤ f.stream.data.length) :
    (f.flush done encode).stream.data =
      encode f.writer.header.finalize ++ (done f.stream).data.drop H ++ f.evlrs ∧
    AtEnd (f.flush done encode).stream ∧ (f.flush done encode).evlrs = f.evlrs ∧
    (f.flush done encode).writer.header = f.writer.header.finalize := by
  obtain ⟨h1, h2⟩ := hd _ he
  have e : (f.flush done encode).stream =
      ⟨encode f.writer.header.finalize ++ ((done f.stream).data ++ f.evlrs).drop H,
        (done f.stream).data.length + f.evlrs.length⟩ := by
    show ((((done f.stream).write f.evlrs).seek 0).write (encode f.writer.header.finalize)).seek
      ((done f.stream).write f.evlrs).pos = _
    rw [write_end h1, header_write ⟨(done f.stream).data ++ f.evlrs, _⟩, hH]
  refine ⟨?_, ?_, rfl, rfl⟩
  · rw [e, List.drop_append_of_le_length (by omega), List.append_assoc]
  · rw [e]
    show (done f.stream).data.length + f.evlrs.length = List.length _
    rw [List.length_append, hH, List.length_drop, List.length_append]
    omega

/-- **C47 violated for LAZ**: a second flush, which `into_inner` makes by itself, appends the extended records again:
    the file becomes longer by at least their length, whatever the compressor does. -/
theorem C47_laz_longer {encode : LasHeader → Bytes} {H : Nat} (hH : ∀ h, (encode h).length = H)
    {done done' : Stream → Stream} (hd : Finishes done) (hd' : Finishes done') {f : LazFile} (he : AtEnd f.stream)
    (hl : H ≤ f.stream.data.length) :
    (f.flush done encode).stream.data.length + f.evlrs.length ≤
      ((f.flush done encode).intoInner done' encode).data.length := by
  obtain ⟨h1, h2, h3, h4⟩ := C47_laz hH hd he hl
  have hlen : (f.flush done encode).stream.data.length = (done f.stream).data.length + f.evlrs.length := by
    rw [h1, List.length_append, List.length_append, hH, List.length_drop]
    have := (hd _ he).2
    omega
  have hl' : H ≤ (f.flush done encode).stream.data.length := by
    rw [hlen]
    have := (hd _ he).2
    omega
  obtain ⟨g1, _⟩ := C47_laz hH hd' h2 hl'
  have := (hd' _ h2).2
  show _ ≤ ((f.flush done encode).flush done' encode).stream.data.length
  rw [g1, List.length_append, List.length_append, hH, List.length_drop, h3]
  omega

/-- **C47 violated for LAZ**, where the compressor has nothing left to write: a file that was flushed and is then taken
    out of the writer with `into_inner` contains the extended records twice. -/
theorem C47_laz_violated {encode : LasHeader → Bytes} {H : Nat} (hH : ∀ h, (encode h).length = H)
    {done : Stream → Stream} (hd : Finishes done) {f : LazFile} (he : AtEnd f.stream) (hl : H ≤ f.stream.data.length) :
    ((f.flush done encode).intoInner id encode).data = (f.flush done encode).stream.data ++ f.evlrs := by
  obtain ⟨h1, h2, h3, h4⟩ := C47_laz hH hd he hl
  have hl' : H ≤ (f.flush done encode).stream.data.length := by
    rw [h1, List.length_append, List.length_append, hH]
    omega
  obtain ⟨g1, _⟩ := C47_laz hH (done := id) (fun s h => ⟨h, le_refl _⟩) h2 hl'
  show ((f.flush done encode).flush id encode).stream.data = _
  rw [g1, h3, h4, finalize_twice]
  show _ ++ (f.flush done encode).stream.data.drop H ++ _ = _
  have e : ∀ a b : Bytes, List.drop H (encode f.writer.header.finalize ++ a ++ b) = a ++ b := by
    intro a b
    rw [List.append_assoc, List.drop_append_of_le_length (by rw [hH]), List.drop_eq_nil_of_le (by rw [hH]),
      List.nil_append]
  rw [h1, e]
  simp only [List.append_assoc]

/-- A file of two bytes of header and one of points, and one byte of extended records, flushed and taken out. -/
example : ∃ f : LazFile, AtEnd f.stream ∧ 2 ≤ f.stream.data.length ∧ f.evlrs = [9] ∧
    Finishes (fun s => s.write [7]) ∧
    (f.flush (fun s => s.write [7]) fun _ => [1, 2]).stream.data = [1, 2, 5, 7, 9] ∧
    ((f.flush (fun s => s.write [7]) fun _ => [1, 2]).intoInner id fun _ => [1, 2]).data = [1, 2, 5, 7, 9, 9] := by
  refine ⟨⟨⟨[], ⟨[], 0, 1⟩, ⟨⟨.zero .f64, .zero .f64, .zero .f64⟩, ⟨.zero .f64, .zero .f64, .zero .f64⟩,
    ⟨⟨.zero .f64, .zero .f64⟩, ⟨.zero .f64, .zero .f64⟩, ⟨.zero .f64, .zero .f64⟩⟩, 0, 20, 0, [], 0, [], 0⟩⟩,
    ⟨[0, 0, 5], 3⟩, [9]⟩, rfl, by decide, rfl, ?_, by decide, by decide⟩
  intro s h
  dsimp only
  rw [write_end h]
  refine ⟨?_, ?_⟩
  · show _ = List.length _; simp
  · show _ ≤ List.length _; simp

end Pasture.Props
