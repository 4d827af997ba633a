import Verif.Lemmas.FailedReads
import Verif.Props.Ascii
import Verif.Props.Pnts

/-!
# C98: where a reader stands after a read that failed
-/

namespace Pasture.Props

open Spec Las BorrowedBuffer

/-! ## The model says the same as before -/

/-- The functions that keep the reader return what the others return. -/
theorem C98_same {β : Type} [BorrowedMutBuffer β] [AsMemoryMut β] (b : β) (count : Nat) (r₁ : RawLasReader)
    (r₂ : RawLazReader) (r₃ : Tiles3d.PntsReader) (r₄ : Ascii.RawAsciiReader) :
    forget (readIntoLas r₁ b count) = PointReader.readInto r₁ b count ∧
      forget (readIntoLaz r₂ b count) = PointReader.readInto r₂ b count ∧
      forget (r₃.readIntoLeft b count) = PointReader.readInto r₃ b count ∧
      forget (Ascii.readIntoAscii r₄ b count) = PointReader.readInto r₄ b count :=
  ⟨forget_las r₁ b count, forget_laz r₂ b count, forget_pnts r₃ b count, forget_ascii r₄ b count⟩

/-! ## LAS -/

theorem las_unharmed {β : Type} [BorrowedMutBuffer β] [AsMemoryMut β] [ReadTarget β] {r : RawLasReader}
    {recs : List Bytes} {i : Nat} (h : Standing r recs i) {target : PointLayout} (ht : Solid target) {b : β}
    (hb : ReadTarget.Consistent b) {qs : List Point} (hq : ShowsPoints b target qs) {count : Nat} {f : Fault}
    {r' : RawLasReader} (hf : readIntoLas r b count = .error (f, r')) : r' = r := by
  have hlen := hq.len_eq
  have hlay := hq.layout_eq
  by_cases hl : len b < count
  · unfold readIntoLas at hf
    rw [if_pos hl] at hf
    cases hf
    rfl
  · by_cases hr : target = r.recordsLayout ∨ Readable r.recordsLayout target r.transforms
    · obtain ⟨b', r₁, h1, _⟩ := las_read_into h ht hr hb hq (count := count) (by omega)
      rw [← forget_las, hf] at h1
      cases h1
    · rw [not_or] at hr
      unfold readIntoLas at hf
      rw [if_neg hl, if_pos (by rw [hlay]; exact hr.1)] at hf
      unfold RawReader.readIntoCustomLayoutLeft at hf
      simp only [standing_remaining h] at hf
      by_cases h0 : min count (recs.length - i) = 0
      · rw [if_pos h0] at hf; cases hf
      · rw [if_neg h0] at hf
        have hpos : 0 < r.recordsLayout.size := by rw [h.described]; exact standing_pos h
        have hper : 0 < 2 ^ 20 / r.recordsLayout.size := Nat.div_pos (by have := h.short; rw [h.described]; omega) hpos
        rw [assertThat_true (decide_eq_true (by omega)), assertThat_true (decide_eq_true (by omega))] at hf
        change (leaving r (defaultConverter _ _ _)).bind _ = _ at hf
        rw [hlay] at hf
        rcases defaultConverter_fails (t := r.transforms) ht hr.2 with e | e
        · rw [e] at hf; cases hf; rfl
        · rw [e] at hf; cases hf; rfl

/-- **C98 in part**, LAS files that are complete, interleaved buffers of any layout: a `read_into` that fails leaves the
    reader as it was. Missing: files that end too early (`C98_truncated`), other readers (`C98_laz`, `C98_pnts_violated`,
    `C98_ascii`). -/
theorem C98_las_interleaved_partial (r : RawLasReader) (recs : List Bytes) (i : Nat) (h : Standing r recs i)
    (target : PointLayout) (ht : Solid target) (b : VectorBuffer) (hb : VectorConsistent b) (qs : List Point)
    (hq : ShowsPoints b target qs) (count : Nat) (f : Fault) (r' : RawLasReader)
    (hf : readIntoLas r b count = .error (f, r')) : r' = r :=
  las_unharmed h ht hb hq hf

/-- **C98 in part**, the same for columnar buffers. -/
theorem C98_las_columnar_partial (r : RawLasReader) (recs : List Bytes) (i : Nat) (h : Standing r recs i)
    (target : PointLayout) (ht : Solid target) (b : HashMapBuffer) (hb : HashMapConsistent b) (qs : List Point)
    (hq : ShowsPoints b target qs) (count : Nat) (f : Fault) (r' : RawLasReader)
    (hf : readIntoLas r b count = .error (f, r')) : r' = r :=
  las_unharmed h ht hb hq hf

/-- An error while reading records into an interleaved buffer is one of `read_exact`, behind which there is nothing to
    read. -/
theorem interleaved_failure {r r' : RawLasReader} {b : VectorBuffer} {count : Nat} (hl : layout b = r.recordsLayout)
    (hf : readIntoLas r b count = .error (.err, r')) :
    0 < r.remainingPoints ∧ r' = { r with reader := FailingSource.afterFailure r.reader } := by
  unfold readIntoLas at hf
  split at hf
  · cases hf
  · rw [if_neg (by simpa using hl)] at hf
    unfold RawReader.readIntoDefaultLayoutLeft at hf
    simp only at hf
    by_cases h0 : min count r.remainingPoints = 0
    · rw [if_pos h0] at hf; cases hf
    · rw [if_neg h0] at hf
      refine ⟨by omega, ?_⟩
      change (r.reading _).bind _ = _ at hf
      unfold RawReader.reading at hf
      split at hf
      · cases hf
      · cases hf; rfl
      · rename_i f' hne heq
        cases hf
        exact (hne rfl).elim

/-- **C98 is violated** by LAS files that end too early, in general: after a `read_into` into an interleaved buffer of the
    layout of the records failed with an error, the reader reports the index it had before, going there changes nothing,
    and every further attempt to read any number of points fails, whether or not they are there. -/
theorem C98_truncated (r : RawLasReader) (b : VectorBuffer) (count : Nat) (r' : RawLasReader)
    (hl : layout b = r.recordsLayout) (hf : readIntoLas r b count = .error (.err, r')) :
    r'.currentPointIndex = r.currentPointIndex ∧
      (r.currentPointIndex ≤ r.pointCount → r.pointCount < 2 ^ 63 →
        SeekToPoint.seekPoint r' (.start r.currentPointIndex) = .ok (r.currentPointIndex, r')) ∧
      ∀ (b' : VectorBuffer) (m : Nat), VectorConsistent b' → layout b' = r.recordsLayout → 0 < r.recordsLayout.size →
        0 < m → m ≤ len b' → ∃ r'', readIntoLas r' b' m = .error (.err, r'') := by
  obtain ⟨hpos, rfl⟩ := interleaved_failure hl hf
  refine ⟨rfl, fun hin hn => ?_, fun b' m hb' hl' hsz hm hle => ?_⟩
  · show RawReader.seekPoint _ _ = _
    unfold RawReader.seekPoint RawReader.newPosition
    simp only
    rw [wrap_i64 (by omega) (by omega), wrap_i64 (by omega) (by omega), if_neg (by omega),
      wrap_u64 (by omega) (by omega), if_neg (by omega)]
    rfl
  · have hsz' : b'.layout.size = r.recordsLayout.size := congrArg PointLayout.size hl'
    have hle' : m ≤ b'.length := hle
    unfold VectorConsistent at hb'
    unfold readIntoLas
    rw [if_neg (by omega), if_neg (by simpa using hl')]
    unfold RawReader.readIntoDefaultLayoutLeft
    have hrem : ∀ s : Stream, RawReader.remainingPoints { r with reader := s } = r.remainingPoints := fun _ => rfl
    simp only [hrem]
    generalize hn : min m r.remainingPoints = n
    have hn0 : 0 < n := by omega
    have hnm : n ≤ b'.length := by omega
    rw [if_neg (by omega)]
    have hfill : InterleavedBufferMut.getPointRangeMut b' ⟨0, n⟩
        (RecordSource.fill (FailingSource.afterFailure r.reader)) = .error .err := by
      have h1 : n * b'.layout.size ≤ b'.storage.length := by rw [hb']; exact Nat.mul_le_mul_right _ hnm
      have h2 : 0 < n * b'.layout.size := Nat.mul_pos hn0 (by omega)
      show Interleaved.getPointRangeMut b' ⟨0, n⟩ _ = _
      unfold Interleaved.getPointRangeMut Interleaved.update Interleaved.read
      have hs : sliceGet b'.storage (b'.byteRangeOfPoints ⟨0, n⟩).start (b'.byteRangeOfPoints ⟨0, n⟩).stop =
          .ok (b'.storage.take (n * b'.layout.size)) := by
        unfold sliceGet Interleaved.byteRangeOfPoints
        simp only [Nat.zero_mul, Nat.zero_le, true_and]
        rw [if_pos h1]
        simp
      rw [hs]
      show Except.bind (if _ ∨ _ then _ else _) _ = _
      rw [if_neg]
      · rfl
      · rw [List.length_take, Nat.min_eq_left h1]
        show ¬ (_ ∨ max r.reader.pos r.reader.data.length + _ ≤ r.reader.data.length)
        omega
    show ∃ r'', (RawReader.reading _ (InterleavedBufferMut.getPointRangeMut b' ⟨0, n⟩ _)).bind _ = _
    rw [hfill]
    exact ⟨_, rfl⟩

/-! ## Going somewhere else -/

theorem recover_generic {σ : Type} [RecordSource σ] [StoresRecords σ] [LawfulSource σ] [Truncates σ] [LawfulCut σ]
    {k : Nat} {r r' : RawReader σ} {recs : List Bytes} {i : Nat} (h : Standing r recs i) (hs : SameSource (r.cut k) r')
    (hn : recs.length < 2 ^ 63) {j : Nat} (hj : j < 2 ^ 63) (hne : min j recs.length ≠ r'.currentPointIndex) :
    ∃ r'', SeekToPoint.seekPoint r' (.start j) = .ok (min j recs.length, r''.cut k) ∧ SameFile r r'' ∧
      Standing r'' recs (min j recs.length) := by
  obtain ⟨⟨e1, e2, e3, e4, e5, e6⟩, hseek⟩ := hs
  have hc : r'.pointCount = recs.length := e1.trans h.count
  refine ⟨{ r with
    reader := RecordSource.toRecord r.offsetToFirstPoint r.sizeOfPoint r.reader (min j recs.length)
    currentPointIndex := min j recs.length }, ?_, ⟨rfl, rfl, rfl, rfl, rfl, rfl⟩,
    ⟨LawfulSource.seek_ok h.stored, h.count, rfl, by omega, h.sizes, h.described, h.short, h.solid⟩⟩
  show RawReader.seekPoint _ _ = _
  unfold RawReader.seekPoint RawReader.newPosition
  simp only
  rw [hc, wrap_i64 (by omega) (by omega), wrap_i64 (by omega) (by omega), if_neg (by omega),
    wrap_u64 (by omega) (by omega), show (min (recs.length : Int) (j : Int)).toNat = min j recs.length by omega,
    if_pos (Ne.symm hne), hseek]
  obtain ⟨rd, pc, tr, ly, rl, ci, off, sz⟩ := r
  obtain ⟨rd', pc', tr', ly', rl', ci', off', sz'⟩ := r'
  simp only [RawReader.cut] at e1 e2 e3 e4 e5 e6 ⊢
  subst e1 e2 e3 e4 e5 e6
  have hc' : pc' = recs.length := hc
  rw [LawfulCut.seek_cut, ← hc']
  rfl

/-- C98, the way out: whatever a `read_into` on a LAS file (cut off at `k`, or complete) did when it failed, a seek to
    another index than the one the reader reports puts it before that record of the file. From there the theorems of C93
    say what is read. -/
theorem C98_las_recover (k : Nat) (r : RawLasReader) (recs : List Bytes) (i : Nat) (h : Standing r recs i)
    {β : Type} [BorrowedMutBuffer β] [AsMemoryMut β] (b : β) (count : Nat) (f : Fault) (r' : RawLasReader)
    (hf : readIntoLas (r.cut k) b count = .error (f, r')) (hn : recs.length < 2 ^ 63) (j : Nat) (hj : j < 2 ^ 63)
    (hne : min j recs.length ≠ r'.currentPointIndex) :
    ∃ r'', SeekToPoint.seekPoint r' (.start j) = .ok (min j recs.length, r''.cut k) ∧ SameFile r r'' ∧
      Standing r'' recs (min j recs.length) := by
  have := leaves_las (r.cut k) b count
  rw [hf] at this
  exact recover_generic h this hn hj hne

/-- C98, the way out for LAZ files. -/
theorem C98_laz_recover (k : Nat) (r : RawLazReader) (recs : List Bytes) (i : Nat) (h : Standing r recs i)
    {β : Type} [BorrowedMutBuffer β] [AsMemoryMut β] (b : β) (count : Nat) (f : Fault) (r' : RawLazReader)
    (hf : readIntoLaz (r.cut k) b count = .error (f, r')) (hn : recs.length < 2 ^ 63) (j : Nat) (hj : j < 2 ^ 63)
    (hne : min j recs.length ≠ r'.currentPointIndex) :
    ∃ r'', SeekToPoint.seekPoint r' (.start j) = .ok (min j recs.length, r''.cut k) ∧ SameFile r r'' ∧
      Standing r'' recs (min j recs.length) := by
  have := leaves_laz (r.cut k) b count
  rw [hf] at this
  exact recover_generic h this hn hj hne

/-! ## LAZ -/

/-- **C98 is violated** by LAZ files, in general: a `read_into` that is refused because of the layout of the buffer has
    passed over the points it should have read. -/
theorem C98_laz (r : RawLazReader) (recs : List Bytes) (i : Nat) (h : Standing r recs i) {β : Type} [BorrowedMutBuffer β]
    [AsMemoryMut β] (b : β) (ht : Solid (layout b)) (hne : layout b ≠ r.recordsLayout)
    (hr : ¬ Readable r.recordsLayout (layout b) r.transforms) (count : Nat) (hc : count ≤ len b)
    (h0 : 0 < min count (recs.length - i)) :
    ∃ f r', readIntoLaz r b count = .error (f, r') ∧ SameFile r r' ∧
      Standing r' recs (i + min count (recs.length - i)) := by
  unfold readIntoLaz
  rw [if_neg (by omega), if_pos hne]
  unfold RawReader.readIntoCustomLayoutAtOnceLeft
  simp only [standing_remaining h]
  generalize hn : min count (recs.length - i) = n at h0
  rw [if_neg (by omega)]
  obtain ⟨f1, f2⟩ := ReadOwner.fresh (β := VectorBuffer) h.solid n
  obtain ⟨b', r', h1, h2, h3, _⟩ := ReadTarget.readDefault h f1 f2 (count := n) (by simp)
  rw [← forget_default] at h1
  rw [show min n (recs.length - i) = n by omega] at h3
  show ∃ f r', Except.bind (RawReader.readIntoDefaultLayoutLeft r _ n) _ = _ ∧ _
  rw [of_forget h1]
  show ∃ f r'', Except.bind (leaving r' (defaultConverter _ _ _)) _ = _ ∧ _
  rcases defaultConverter_fails (t := r.transforms) ht hr with e | e
  · rw [e]; exact ⟨_, _, rfl, h2, h3⟩
  · rw [e]; exact ⟨_, _, rfl, h2, h3⟩

/-! ## PNTS -/

/-- **C98 in part**, PNTS files, also such that end too early: a `read_into` that fails leaves the reader as it was,
    if there is no center to be added to the positions. Missing: the rest (`C98_pnts_violated`). -/
theorem C98_pnts_partial (r : Tiles3d.PntsReader) {β : Type} [BorrowedMutBuffer β] (b : β) (count : Nat) (f : Fault)
    (r' : Tiles3d.PntsReader) (hm : r.mode ≠ .absolute ∨ r.metadata.rtcCenter = none)
    (hf : r.readIntoLeft b count = .error (f, r')) : r' = r := by
  unfold Tiles3d.PntsReader.readIntoLeft at hf
  change (leaving r (bailIf _)).bind _ = _ at hf
  cases hb : bailIf (decide (min (r.metadata.pointsLength - r.currentPointIndex) count = 0)) with
  | error e => rw [hb] at hf; cases hf; rfl
  | ok u =>
    rw [hb] at hf
    change (leaving r (forLoop _ _ _)).bind _ = _ at hf
    cases hl : forLoop r.layout.attributes b (r.readAttribute (BorrowedBuffer.layout b)
        (min (r.metadata.pointsLength - r.currentPointIndex) count)) with
    | error e => rw [hl] at hf; cases hf; rfl
    | ok b' =>
      rw [hl] at hf
      change (leaving _ (if r.mode = .absolute then Tiles3d.PntsReader.applyRtcCenter _ b' else pure b')).bind _ = _ at hf
      have : (if r.mode = .absolute then Tiles3d.PntsReader.applyRtcCenter
          { r with currentPointIndex := r.currentPointIndex + min (r.metadata.pointsLength - r.currentPointIndex) count } b'
          else pure b') = .ok b' := by
        rcases hm with hm | hm
        · rw [if_neg hm]; rfl
        · split
          · unfold Tiles3d.PntsReader.applyRtcCenter
            simp only [hm]
            rfl
          · rfl
      rw [this] at hf
      cases hf

/-- Positions as integers. -/
def gridLayout : PointLayout := ⟨[⟨⟨"Position3D", .vec3i32⟩, 0⟩], 12, 1⟩

/-- The reader of `oneTile` behind its only point. -/
def oneTileEnd : Tiles3d.PntsReader := { oneTile with currentPointIndex := 1 }

/-- **C98 is violated** by PNTS files with a center: a buffer for integer positions is refused, when the only point has
    been passed over; it can no longer be read. -/
theorem C98_pnts_violated :
    oneTile.readIntoLeft (Interleaved.ofRecords gridLayout [zeros 12] : VectorBuffer) 1 = .error (.err, oneTileEnd) ∧
      oneTileEnd ≠ oneTile ∧
      (∀ (b : VectorBuffer) (count : Nat), oneTileEnd.readInto b count = .error .err) ∧
      ∃ b r', oneTile.readInto twoPoints 1 = .ok (1, b, r') := by
  refine ⟨?_, ?_, ?_, ?_⟩
  · rfl
  · intro h
    have := congrArg Tiles3d.PntsReader.currentPointIndex h
    cases this
  · intro b count
    unfold Tiles3d.PntsReader.readInto
    show (bailIf (decide (min (1 - 1) count = 0))).bind _ = _
    rw [show min (1 - 1) count = 0 by omega]
    rfl
  · obtain ⟨hb, hq⟩ := twoPoints_shows
    obtain ⟨b', r', h1, _⟩ := C56_actual_interleaved oneTile_opened tile_solid (Tiles3d.convertible_self tile_solid)
      (fun _ _ => by intro m hm _; obtain rfl := List.mem_singleton.1 hm; exact .inl rfl) hb hq (count := 1)
      (by decide) (by decide)
    exact ⟨b', r', h1⟩

/-! ## Text files -/

section
variable {β : Type} [OwningBuffer β] [RecordBuffer β]

theorem readLoop_lost {l : PointLayout} (hl : Solid l) {r : Ascii.RawAsciiReader} {bad : List Char} :
    ∀ (good rest : List (List Char)) (count index : Nat) (buffer : Bytes) (text : List Char) (rs : List Bytes),
      Ascii.Lines text (good ++ bad :: rest) → AllLen l.size rs → index + good.length ≤ rs.length → good.length < count →
      buffer.length = l.size → Ascii.Blank l (r.parseLayout.map Ascii.columnOf) buffer →
      (∀ line ∈ good, Ascii.Good (r.parseLayout.map Ascii.columnOf) (Ascii.split line r.delimiter)) →
      ¬ Ascii.Good (r.parseLayout.map Ascii.columnOf) (Ascii.split bad r.delimiter) →
      ∃ text', Ascii.readLoopLeft r count index ⟨l, buffer⟩ text (HoldsRecords.ofRecords l rs : β) =
          .error (.err, { r with rest := text' }) ∧ Ascii.Lines text' rest := by
  intro good
  induction good with
  | nil =>
    intro rest count index buffer text rs ht hrs hi hc hb hblank hg hbad
    obtain ⟨text', hnext, hrest⟩ := Ascii.nextLine_some ht
    obtain ⟨count, rfl⟩ : ∃ c, count = c + 1 := ⟨count - 1, by simp at hc; omega⟩
    refine ⟨text', ?_, hrest⟩
    unfold Ascii.readLoopLeft
    rw [hnext]
    show (leaving _ (Ascii.parsePoint _ bad _ _)).bind _ = _
    unfold Ascii.parsePoint
    rw [Ascii.parseColumns_err hl r.parseLayout _ buffer hb hbad]
    rfl
  | cons line good ih =>
    intro rest count index buffer text rs ht hrs hi hc hb hblank hg hbad
    obtain ⟨text', hnext, hrest⟩ := Ascii.nextLine_some ht
    obtain ⟨count, rfl⟩ : ∃ c, count = c + 1 := ⟨count - 1, by simp at hc; omega⟩
    have hi' : index < rs.length := by simp at hi; omega
    obtain ⟨out, h1, h2⟩ := Ascii.parsePoint_ok hl hb hblank (hg line (by simp))
    have hset := Ascii.setPoint_records (β := β) hl hrs h2.1 hi'
    obtain ⟨text'', g1, g2⟩ := ih rest count (index + 1) out text' (rs.set index out) hrest
      (fun x hx => by
        rcases List.mem_or_eq_of_mem_set hx with hx | rfl
        · exact hrs x hx
        · exact h2.1)
      (by simp at hi ⊢; omega) (by simp at hc; omega) h2.1 h2.2.2 (fun x hx => hg x (by simp [hx])) hbad
    refine ⟨text'', ?_, g2⟩
    unfold Ascii.readLoopLeft
    rw [hnext]
    show (leaving _ (Ascii.parsePoint _ line _ _)).bind _ = _
    rw [h1]
    show (leaving _ (BorrowedMutBuffer.setPoint _ index out)).bind _ = _
    rw [hset]
    exact g1

theorem ascii_lost {format d : List Char} {r : Ascii.RawAsciiReader} {good rest : List (List Char)} {bad : List Char}
    (hr : ReaderAt format d r (good ++ bad :: rest)) {l : PointLayout} (hl : Solid l) {rs : List Bytes}
    (hall : AllLen l.size rs) {count : Nat} (hc : good.length < count) (hfit : count ≤ rs.length)
    (hgood : ∀ line ∈ good, ReadableLine format d line) (hbad : ¬ ReadableLine format d bad) :
    ∃ r', Ascii.readIntoAscii r (HoldsRecords.ofRecords l rs : β) count = .error (.err, r') ∧
      ReaderAt format d r' rest := by
  obtain ⟨_, hm⟩ := format_types hr.format_eq
  have hd := hr.delimiter_eq
  obtain ⟨text', h1, h2⟩ := readLoop_lost (β := β) hl (r := r) good rest count 0 (zeros l.size) r.rest rs hr.lines hall
    (by omega) hc (by simp [zeros]) (Ascii.blank_zeros hl _)
    (fun line hline => by rw [hd]; exact (readable_iff hm d line).2 (hgood line hline))
    (fun h => hbad (by rw [hd] at h; exact (readable_iff hm d bad).1 h))
  refine ⟨{ r with rest := text' }, ?_, ⟨hr.format_eq, hd, h2⟩⟩
  have hlay : BorrowedBuffer.layout (HoldsRecords.ofRecords l rs : β) = l := (HoldsRecords.shows hl hall).layout_eq
  unfold Ascii.readIntoAscii
  rw [hlay]
  show (Ascii.readLoopLeft r count 0 ⟨l, zeros l.size⟩ r.rest _).bind _ = _
  rw [h1]
  rfl

end

/-- **C98 is violated** by text files, in general: a `read_into` fails at the first line that cannot be read. It has passed
    over this line and over the readable ones before it, which never become points. -/
theorem C98_ascii {format d : List Char} {r : Ascii.RawAsciiReader} {good rest : List (List Char)} {bad : List Char}
    (hr : ReaderAt format d r (good ++ bad :: rest)) (b : VectorBuffer) (hl : Solid b.layout) (hb : VectorConsistent b)
    (count : Nat) (hc : good.length < count) (hfit : count ≤ len b)
    (hgood : ∀ line ∈ good, ReadableLine format d line) (hbad : ¬ ReadableLine format d bad) :
    ∃ r', Ascii.readIntoAscii r b count = .error (.err, r') ∧ ReaderAt format d r' rest := by
  have hall := Interleaved.records_allLen hb
  have e := Interleaved.ofRecords_records hb
  have := ascii_lost (β := VectorBuffer) hr hl hall (count := count) hc (by
    have : b.records.length = b.length := by
      have := congrArg Interleaved.length e
      exact this
    show count ≤ b.records.length
    rw [this]; exact hfit) hgood hbad
  rw [show (HoldsRecords.ofRecords b.layout b.records : VectorBuffer) = b from e] at this
  exact this

/-! ## Concrete cases -/

theorem grid_solid : Solid gridLayout := by decide +kernel

theorem grid_unreadable (raw : PointLayout) (t : Transforms) : ¬ Readable raw gridLayout t := by
  intro h
  rcases h.1 ⟨⟨"Position3D", .vec3i32⟩, 0⟩ (by simp [gridLayout]) rfl with h | h <;> cases h

/-- A reader of three records of format 0, of any kind, that stands before the first one. -/
theorem three_standing (t : Transforms) : ∃ raw : PointLayout,
    Standing (⟨⟨[9, 9] ++ threeRecords.flatten, 2⟩, 3, t, raw, raw, 0, 2, 20⟩ : RawLasReader) threeRecords 0 ∧
      Standing (⟨⟨20, threeRecords, 0⟩, 3, t, raw, raw, 0, 2, 20⟩ : RawLazReader) threeRecords 0 ∧
      gridLayout ≠ raw := by
  obtain ⟨f, l, raw, h1, h2, h3, h4, h5, h6, h7, h8, _⟩ := format_layouts 0 (by decide) false t
  refine ⟨raw, ⟨⟨by show window ([9, 9] ++ threeRecords.flatten) 2 (3 * 20) = _; decide, rfl⟩, rfl, rfl, Nat.zero_le _,
    by show ∀ rec ∈ threeRecords, rec.length = 20; decide, h4, h5, h6⟩, ⟨⟨⟨[], by simp⟩, rfl, rfl⟩, rfl, rfl, Nat.zero_le _,
    by show ∀ rec ∈ threeRecords, rec.length = 20; decide, h4, h5, h6⟩, ?_⟩
  intro e
  rw [← e] at h4
  exact absurd h4 (by decide)

/-- **C98 violated** (LAS): a file should have three points, but ends within the second. The first one can be read, but not
    after the attempt to read all of them. -/
theorem C98_violated : ∃ (r r' : RawLasReader) (b b₁ : VectorBuffer),
    readIntoLas r b 3 = .error (.err, r') ∧ (∃ x, readIntoLas r b₁ 1 = .ok x) ∧
      ∃ r'', readIntoLas r' b₁ 1 = .error (.err, r'') := by
  have t : Transforms := ⟨⟨⟨false, 0⟩, ⟨false, 0⟩⟩, ⟨⟨false, 0⟩, ⟨false, 0⟩⟩, ⟨⟨false, 0⟩, ⟨false, 0⟩⟩⟩
  obtain ⟨raw, h, _, _⟩ := three_standing t
  generalize hr : (⟨⟨[9, 9] ++ threeRecords.flatten, 2⟩, 3, t, raw, raw, 0, 2, 20⟩ : RawLasReader) = r at h
  have hsz : 0 < r.recordsLayout.size := by rw [h.described]; exact standing_pos h
  obtain ⟨a1, a2⟩ := ReadOwner.fresh (β := VectorBuffer) h.solid 3
  obtain ⟨c1, c2⟩ := ReadOwner.fresh (β := VectorBuffer) h.solid 1
  have hcut : ∀ m, Complete 30 r m ↔ 2 + m * 20 ≤ 30 := by intro m; rw [← hr]; exact Iff.rfl
  have g1 := (C93_las_interleaved 30 threeRecords 0 _ h.solid _ 3 (by simp) r h (.inl rfl) _ a1 a2).2 (by decide)
    (by rw [hcut]; decide)
  obtain ⟨b', r₁, g2, _⟩ := (C93_las_interleaved 30 threeRecords 0 _ h.solid _ 1 (by simp) r h (.inl rfl) _ c1 c2).1
    (.inr (by rw [hcut]; decide))
  rw [← forget_las] at g1 g2
  obtain ⟨r', g1⟩ := of_forget_error g1
  refine ⟨r.cut 30, r', _, _, g1, ⟨_, of_forget g2⟩, ?_⟩
  obtain ⟨_, _, g3⟩ := C98_truncated (r.cut 30) _ 3 r' a2.layout_eq g1
  exact g3 _ 1 c1 c2.layout_eq hsz (by decide) (by rw [c2.len_eq]; simp)

/-- The way out applies to such a file: after the attempt to read all points, a seek to the second point succeeds. -/
example : ∃ (r r' r'' : RawLasReader) (b : VectorBuffer), readIntoLas (r.cut 30) b 3 = .error (.err, r') ∧
    SeekToPoint.seekPoint r' (.start 1) = .ok (1, r''.cut 30) ∧ Standing r'' threeRecords 1 := by
  have t : Transforms := ⟨⟨⟨false, 0⟩, ⟨false, 0⟩⟩, ⟨⟨false, 0⟩, ⟨false, 0⟩⟩, ⟨⟨false, 0⟩, ⟨false, 0⟩⟩⟩
  obtain ⟨raw, h, _, _⟩ := three_standing t
  generalize hr : (⟨⟨[9, 9] ++ threeRecords.flatten, 2⟩, 3, t, raw, raw, 0, 2, 20⟩ : RawLasReader) = r at h
  obtain ⟨a1, a2⟩ := ReadOwner.fresh (β := VectorBuffer) h.solid 3
  have hcut : ∀ m, Complete 30 r m ↔ 2 + m * 20 ≤ 30 := by intro m; rw [← hr]; exact Iff.rfl
  have g1 := (C93_las_interleaved 30 threeRecords 0 _ h.solid _ 3 (by simp) r h (.inl rfl) _ a1 a2).2 (by decide)
    (by rw [hcut]; decide)
  rw [← forget_las] at g1
  obtain ⟨r', g1⟩ := of_forget_error g1
  have hi := (C98_truncated (r.cut 30) _ 3 r' a2.layout_eq g1).1
  have h0 : (r.cut 30).currentPointIndex = 0 := h.index
  obtain ⟨r'', g2, _, g3⟩ := C98_las_recover 30 r threeRecords 0 h _ 3 _ r' g1 (by decide) 1 (by decide)
    (by rw [hi, h0]; decide)
  exact ⟨r, r', r'', _, g1, g2, g3⟩

/-- **C98 violated** (LAZ): the buffer is for integer positions, so a `read_into` of two points is refused; the reader then
    stands before the third. The LAS reader of the same points still stands before the first. -/
theorem C98_laz_violated : ∃ (r r' : RawLazReader) (f : Fault) (s s' : RawLasReader) (f' : Fault) (b : VectorBuffer),
    Standing r threeRecords 0 ∧ readIntoLaz r b 2 = .error (f, r') ∧ Standing r' threeRecords 2 ∧
      Standing s threeRecords 0 ∧ readIntoLas s b 2 = .error (f', s') ∧ s' = s := by
  have t : Transforms := ⟨⟨⟨false, 0⟩, ⟨false, 0⟩⟩, ⟨⟨false, 0⟩, ⟨false, 0⟩⟩, ⟨⟨false, 0⟩, ⟨false, 0⟩⟩⟩
  obtain ⟨raw, h, h', hne⟩ := three_standing t
  obtain ⟨a1, a2⟩ := ReadOwner.fresh (β := VectorBuffer) grid_solid 2
  have hlay := a2.layout_eq
  have hlen : len (OwningBuffer.resize (MakeBufferFromLayout.newFromLayout gridLayout : VectorBuffer) 2) = 2 := by
    rw [a2.len_eq]; simp
  obtain ⟨f, r', g1, _, g2⟩ := C98_laz _ _ _ h'
    (OwningBuffer.resize (MakeBufferFromLayout.newFromLayout gridLayout : VectorBuffer) 2) (by rw [hlay]; exact grid_solid)
    (by rw [hlay]; exact hne) (by rw [hlay]; exact grid_unreadable _ _) 2 (by rw [hlen]) (by decide)
  have hbad := C38_unreadable _ _ _ h
    (OwningBuffer.resize (MakeBufferFromLayout.newFromLayout gridLayout : VectorBuffer) 2) (by rw [hlay]; exact grid_solid) 2
    (by rw [hlay]; exact hne) (by rw [hlay]; exact grid_unreadable _ _) (by decide) (by decide)
  rw [← forget_las] at hbad
  obtain ⟨f', s', g3⟩ : ∃ f' s', readIntoLas _ _ 2 = .error (f', s') := by
    rcases hbad with e | e
    · exact ⟨_, of_forget_error e⟩
    · exact ⟨_, of_forget_error e⟩
  exact ⟨_, r', f, _, s', f', _, h', g1, g2, h, g3, C98_las_interleaved_partial _ _ _ h _ grid_solid _ a1 _ a2 _ _ _ g3⟩

/-- **C98 violated** (text): the second line cannot be read. The number in the first one is lost, the next read gives that in
    the third. -/
theorem C98_ascii_violated : ∃ (r r' r'' : Ascii.RawAsciiReader) (b b' : VectorBuffer),
    Ascii.RawAsciiReader.fromRead id "5\nx\n7\n".toList "i".toList ",".toList = .ok r ∧
      Ascii.readIntoAscii r b 2 = .error (.err, r') ∧ Ascii.readIntoAscii r' b 1 = .ok (1, b', r'') ∧
      getAttribute b' ⟨"Intensity", .u16⟩ 0 (zeros 2) = .ok [7, 0] :=
  ⟨_, _, _, ⟨zeros 4, ⟨[⟨⟨"Intensity", .u16⟩, 0⟩], 2, 1⟩, 2⟩, _, rfl, rfl, rfl, rfl⟩

end Pasture.Props
