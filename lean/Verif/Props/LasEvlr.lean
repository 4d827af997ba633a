import Verif.Spec.LasEvlr
import Verif.Props.LasWriter

/-!
# C88: Extended variable length records are where the header says
-/

namespace Pasture.Props
open Pasture.Las Pasture.Spec

theorem recs_length {n : Nat} (hn : n ≤ 10) {t : Transforms} {calls : List WriterCall} {recs : List Bytes}
    (h : Stored n t (written calls) recs) : recs.flatten.length = (written calls).length * lasRecordLength n := by
  rw [(Las.stored_allLen hn (written_sized calls) h).flatten_length, mapM_length h]

theorem evlrsAt_iff {front evlrs : Bytes} (he : evlrs ≠ []) (start : Nat) :
    EvlrsAt (front ++ evlrs) start evlrs ↔ start = front.length := by
  have := List.length_pos_iff.2 he
  constructor
  · rintro ⟨h1, h2⟩
    have := congrArg List.length h2
    rw [List.length_drop] at this
    rw [List.length_append] at h1 this
    omega
  · rintro rfl
    exact ⟨by simp, List.drop_left⟩

/-- The position in the header is the one of the header given to the writer. -/
theorem open_evlrStart {n : Nat} {encode : LasHeader → Bytes} {H : Nat} {template : LasHeader} {vlrs evlrs : Bytes}
    {w : RawLasWriter} (o : OpenedLas n encode H template vlrs evlrs w) : w.header.evlrStart = template.evlrStart := by
  obtain ⟨f, _, h2⟩ := o.opened
  unfold RawLasWriter.new at h2
  obtain ⟨_, _, h2⟩ := bind_ok h2
  obtain ⟨_, _, h2⟩ := bind_ok h2
  obtain ⟨_, _, h2⟩ := bind_ok h2
  cases h2
  rfl

/-- **C88**: after any calls of `write` and `flush` and a last `flush`, the extended records given to the writer are
    once in the file: directly after the points, and nothing is behind them. -/
theorem C88_where {n : Nat} {encode : LasHeader → Bytes} {H : Nat} {template : LasHeader} {vlrs evlrs : Bytes}
    {w : RawLasWriter} (o : OpenedLas n encode H template vlrs evlrs w) (calls : List WriterCall) {recs : List Bytes}
    (h : Stored n template.transforms (written calls) recs) :
    ∃ w', runLas encode w (calls ++ [.flush]) = .ok w' ∧
      EvlrsAt w'.writer.data (afterPoints H vlrs n (written calls).length) evlrs ∧
      w'.writer.data.length = afterPoints H vlrs n (written calls).length + evlrs.length := by
  obtain ⟨w', h1, h2⟩ := C47_las o calls h
  have hn : n ≤ 10 := by obtain ⟨f, hf, _⟩ := o.opened; exact (itemsOf_eq hf).2
  have hl : (encode w'.header ++ vlrs ++ recs.flatten).length = afterPoints H vlrs n (written calls).length := by
    rw [List.length_append, List.length_append, o.header_size, recs_length hn h]; rfl
  refine ⟨w', h1, ?_, ?_⟩
  · rw [h2, ← hl]
    exact ⟨by simp, List.drop_left⟩
  · rw [h2, List.length_append, hl]

/-- **C88, what holds**: the start of the extended records in the header of a written file is right if and only if the
    header given to the writer had it, before any point was written. Missing: the writer does not set it. -/
theorem C88_partial {n : Nat} {encode : LasHeader → Bytes} {H : Nat} {template : LasHeader} {vlrs evlrs : Bytes}
    {w : RawLasWriter} (o : OpenedLas n encode H template vlrs evlrs w) (calls : List WriterCall) {recs : List Bytes}
    (h : Stored n template.transforms (written calls) recs) (he : evlrs ≠ []) :
    ∃ w', runLas encode w (calls ++ [.flush]) = .ok w' ∧
      (EvlrsAt w'.writer.data w'.header.evlrStart evlrs ↔
        template.evlrStart = afterPoints H vlrs n (written calls).length) := by
  obtain ⟨w1, w', _, h1, h2, h3, i, _⟩ := run_flush o calls h
  have hn : n ≤ 10 := by obtain ⟨f, hf, _⟩ := o.opened; exact (itemsOf_eq hf).2
  have hl : (encode w'.header ++ vlrs ++ recs.flatten).length = afterPoints H vlrs n (written calls).length := by
    rw [List.length_append, List.length_append, o.header_size, recs_length hn h]; rfl
  have e : w'.header.evlrStart = template.evlrStart := by
    rw [h3, i.header.finalize.evlrStart, open_evlrStart o]
  refine ⟨w', h1, ?_⟩
  rw [h2, evlrsAt_iff he, hl, e]

/-- The same where the header given to the writer is consistent, as the `las` crate makes it: the start of the
    extended records is behind the `m` points the header counts. Then the written header is right exactly if
    `m` points were written. -/
theorem C88_count_partial {n : Nat} {encode : LasHeader → Bytes} {H : Nat} {template : LasHeader} {vlrs evlrs : Bytes}
    {w : RawLasWriter} (o : OpenedLas n encode H template vlrs evlrs w) (calls : List WriterCall) {recs : List Bytes}
    (h : Stored n template.transforms (written calls) recs) (he : evlrs ≠ []) {m : Nat}
    (hm : template.evlrStart = afterPoints H vlrs n m) :
    ∃ w', runLas encode w (calls ++ [.flush]) = .ok w' ∧
      (EvlrsAt w'.writer.data w'.header.evlrStart evlrs ↔ (written calls).length = m) := by
  obtain ⟨w', h1, h2⟩ := C88_partial o calls h he
  refine ⟨w', h1, h2.trans ?_⟩
  have hn : n ≤ 10 := by obtain ⟨f, hf, _⟩ := o.opened; exact (itemsOf_eq hf).2
  have hp : 0 < lasRecordLength n := by
    have : ∀ n : Fin 11, 0 < lasRecordLength n.val := by decide
    exact this ⟨n, by omega⟩
  rw [hm]
  unfold afterPoints
  constructor
  · intro e
    exact (Nat.eq_of_mul_eq_mul_right hp (by omega)).symm
  · rintro rfl; rfl

/-- A header without points; extended records start directly behind it. -/
def evlrHeader : LasHeader := { smallHeader with evlrStart := 12 }

/-- **C88 violated**: a file is written from a header without points, with one byte of extended records. After three
    points were written, the header still says that the extended records start at byte 12, where the first point is. -/
theorem C88_violated : ∃ w w', OpenedLas 0 smallEncode 12 evlrHeader [] [3] w ∧
    evlrHeader.evlrStart = afterPoints 12 [] 0 0 ∧
    runLas smallEncode w [.write (smallBatch 3), .flush] = .ok w' ∧ w'.header.evlrStart = 12 ∧
    ¬ EvlrsAt w'.writer.data w'.header.evlrStart [3] ∧ EvlrsAt w'.writer.data 72 [3] := by
  obtain ⟨w, o⟩ := opens_las (n := 0) (by omega) smallEncode small_encode evlrHeader rfl small_scales [] [3]
  obtain ⟨recs, hrec⟩ := small_stored 3
  have hw : written [.write (smallBatch 3)] = (smallBatch 3).points := List.append_nil _
  have hl : (written [.write (smallBatch 3)]).length = 3 := by rw [hw, small_points, List.length_replicate]
  have hs : Stored 0 evlrHeader.transforms (written [.write (smallBatch 3)]) recs := hw ▸ hrec
  obtain ⟨w', h1, h2⟩ := C88_count_partial o [.write (smallBatch 3)] hs (by decide) (m := 0) (by decide)
  obtain ⟨w'', g1, g2, _⟩ := C88_where o [.write (smallBatch 3)] hs
  obtain ⟨u, u', _, k1, _, k3, i, _⟩ := run_flush o [.write (smallBatch 3)] hs
  obtain rfl : w' = w'' := by rw [h1] at g1; cases g1; rfl
  obtain rfl : w' = u' := by rw [h1] at k1; cases k1; rfl
  rw [hl] at h2 g2
  refine ⟨w, w', o, by decide, h1, ?_, fun h => absurd (h2.1 h) (by decide), g2⟩
  rw [k3, i.header.finalize.evlrStart, open_evlrStart o]
  rfl

/-- The theorems apply: a header made for three points, which are written in two calls with a flush in between. -/
example : ∃ w w', OpenedLas 0 smallEncode 12 { smallHeader with evlrStart := 74 } [1, 2] [3, 4] w ∧
    runLas smallEncode w [.write (smallBatch 1), .flush, .write (smallBatch 2), .flush] = .ok w' ∧
    EvlrsAt w'.writer.data w'.header.evlrStart [3, 4] := by
  obtain ⟨w, o⟩ := opens_las (n := 0) (by omega) smallEncode small_encode { smallHeader with evlrStart := 74 } rfl
    small_scales [1, 2] [3, 4]
  obtain ⟨r1, h1⟩ := small_stored 1
  obtain ⟨r2, h2⟩ := small_stored 2
  have hw : written [.write (smallBatch 1), .flush, .write (smallBatch 2)] = (smallBatch 1).points ++ (smallBatch 2).points := by
    show _ ++ (_ ++ []) = _
    rw [List.append_nil]
    rfl
  obtain ⟨w', g1, g2⟩ := C88_count_partial o [.write (smallBatch 1), .flush, .write (smallBatch 2)]
    (hw ▸ stored_append h1 h2) (by decide) (m := 3) (by decide)
  exact ⟨w, w', o, g1, g2.2 (by rw [hw, List.length_append, small_points, small_points]; rfl)⟩

end Pasture.Props
