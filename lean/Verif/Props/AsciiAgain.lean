import Verif.Spec.AsciiAgain
import Verif.Lemmas.AsciiAgain
import Verif.Props.AsciiDetour
import Verif.Props.AsciiDepends

/-!
# C118: writing an ASCII file again after reading it
-/

namespace Pasture.Props

open Spec Spec.Ascii Pasture.Ascii BorrowedBuffer Las

section
variable {γ : Type} [BorrowedBuffer γ] {b : γ} {l : PointLayout} {ps : List Point} {format : List Char} {w : RawAsciiWriter}

/-- What was written, line by line. -/
theorem written_lines (hl : Solid l) (hb : ShowsPoints b l ps) (hf : Closed w.parseLayout)
    (hw : WriterFor format w) (hp : 1 ≤ w.precision) (hd : ClearDelimiter w.delimiter)
    (hattr : ∀ d, Described format d → d ∈ l.attributes.map Member.definition) :
    ∃ ls, ps.mapM (pointLine w) = .ok ls ∧
      Lines (ls.map (· ++ ['\n'])).flatten ls := by
  have hcols : ∀ p ∈ ps, ∃ cols, w.parseLayout.mapM (pointText w.precision p) = .ok cols := fun p hpp =>
    columns_ok hw fun d hd' => ((points_typed hl hb hpp).1 d).1 (hattr d (described_written hw hf hd'))
  have hok : ∀ p ∈ ps, ∃ line, pointLine w p = .ok line := by
    intro p hpp
    obtain ⟨cols, hc⟩ := hcols p hpp
    exact ⟨_, by unfold pointLine; rw [hc]; rfl⟩
  obtain ⟨ls, hls⟩ := mapM_ok_of hok
  obtain ⟨hlen, hget⟩ := mapM_ok_getElem hls
  refine ⟨ls, hls, lines_flatten fun s hs => ?_⟩
  obtain ⟨i, hi⟩ := List.getElem?_of_mem hs
  have hi' : i < ps.length := by rw [← hlen]; exact (List.getElem?_eq_some_iff.1 hi).1
  obtain ⟨line, h3, h4⟩ := hget i _ (List.getElem?_eq_getElem hi')
  rw [hi] at h3
  cases h3
  obtain ⟨cols, h5, rfl⟩ := pointLine_ok h4
  exact line_ends hd (columns_plain hp h5)

/-- Records that were read from these lines are written as these lines. -/
theorem lines_again {target : PointLayout} (hf : Closed w.parseLayout) (hp : 1 ≤ w.precision)
    (hd : ClearDelimiter w.delimiter)
    (hattr : ∀ c, some c ∈ w.parseLayout.map columnOf → c.attr ∈ target.attributes.map Member.definition) :
    ∀ {ps : List Point} {ls : List (List Char)} {recs : List Bytes},
      (∀ p ∈ ps, ∀ d v, p.get d = some v → v.length = d.size) → ps.mapM (pointLine w) = .ok ls →
      List.Forall₂ (fun line rec => LineRecord target w.parseLayout (split line w.delimiter) rec) ls recs →
      (recs.map (pointOf target)).mapM (pointLine w) = .ok ls := by
  intro ps
  induction ps with
  | nil =>
    intro ls recs _ h h'
    cases h
    cases h'
    rfl
  | cons p ps ih =>
    intro ls recs hs h h'
    rw [List.mapM_cons] at h
    cases ha : pointLine w p with
    | error e => rw [ha] at h; cases h
    | ok line =>
      cases hm : ps.mapM (pointLine w) with
      | error e => rw [ha, hm] at h; cases h
      | ok rest =>
        rw [ha, hm] at h
        cases h
        cases h' with
        | cons h1 h2 =>
          rw [List.map_cons, List.mapM_cons, ih (fun q hq => hs q (List.mem_cons_of_mem _ hq)) hm h2]
          obtain ⟨cols, h5, rfl⟩ := pointLine_ok ha
          have hsplit := split_intercalate hd (columns_plain hp h5)
          have htext := text_again hf hp (hs p List.mem_cons_self) h5 (cols' := split (w.delimiter.intercalate cols) w.delimiter)
            (by
              intro j hj
              rw [hsplit, if_neg (by rintro rfl; simp at hj)]) hattr h1
          have : pointLine w (pointOf target ‹_›) = pointLine w p := by
            unfold pointLine
            rw [mapM_same htext]
          rw [this, ha]
          rfl

/-- Every line can be read. -/
theorem lines_readable (hw : WriterFor format w) (hp : 1 ≤ w.precision)
    (hd : ClearDelimiter w.delimiter) {ls : List (List Char)}
    (hs : ∀ p ∈ ps, ∀ d v, p.get d = some v → v.length = d.size) (h : ps.mapM (pointLine w) = .ok ls) :
    ∀ line ∈ ls, ReadableLine format w.delimiter line := by
  obtain ⟨_, hm⟩ := format_types hw
  obtain ⟨hlen, hget⟩ := mapM_ok_getElem h
  intro line hmem
  obtain ⟨i, hi⟩ := List.getElem?_of_mem hmem
  have hi' : i < ps.length := by rw [← hlen]; exact (List.getElem?_eq_some_iff.1 hi).1
  obtain ⟨line', h3, h4⟩ := hget i _ (List.getElem?_eq_getElem hi')
  rw [hi] at h3
  cases h3
  obtain ⟨cols, h5, rfl⟩ := pointLine_ok h4
  have hsplit := split_intercalate hd (columns_plain hp h5)
  rw [← readable_iff hm]
  refine good_again hp (hs _ (List.getElem_mem hi')) h5 ?_ ?_
  · intro j hj
    rw [hsplit, if_neg (by rintro rfl; simp at hj)]
  · rw [hsplit]
    split
    · rename_i h; simp [h]
    · exact Nat.le_refl _

/-- The precision matters for coordinates and times only. -/
theorem precision_free (hw : WriterFor format w) (h : ∀ ch ∈ ['x', 'y', 'z', 't'], ch ∉ format) (k : Nat) :
    pointLine w = pointLine { w with precision := k } := by
  obtain ⟨-, hm⟩ := format_types hw
  have hletter : ∀ t ∈ w.parseLayout, ∃ ch ∈ format, meaning ch = some (columnOf t) := by
    intro t ht
    have h1 : some (columnOf t) ∈ format.map meaning := hm ▸ List.mem_map.2 ⟨t, ht, rfl⟩
    obtain ⟨ch, h2, h3⟩ := List.mem_map.1 h1
    exact ⟨ch, h2, h3⟩
  have hint : ∀ t ∈ w.parseLayout, ∀ c, columnOf (writtenAs t) = some c → c.type.isInt = true := by
    intro t ht c hc
    obtain ⟨ch, h1, h2⟩ := hletter t ht
    have h3 : ch ≠ 'x' ∧ ch ≠ 'y' ∧ ch ≠ 'z' ∧ ch ≠ 't' := by
      refine ⟨?_, ?_, ?_, ?_⟩ <;> rintro rfl <;> exact h _ (by decide) h1
    unfold meaning at h2
    split at h2
    all_goals first
      | exact absurd rfl h3.1
      | exact absurd rfl h3.2.1
      | exact absurd rfl h3.2.2.1
      | exact absurd rfl h3.2.2.2
      | cases h2
      | (cases t <;> first
          | exact absurd (congrArg (Option.map (Option.map Column.type)) h2) (by decide)
          | (cases hc <;> rfl))
  funext p
  unfold pointLine
  rw [mapM_same fun t ht => ?_]
  unfold pointText
  cases hc : columnOf (writtenAs t) with
  | none => rfl
  | some c =>
    dsimp only
    cases p.get c.attr with
    | none => rfl
    | some v =>
      dsimp only
      unfold numText
      rw [readNum_int (hint t ht c hc)]

theorem decimals_lines (hw : WriterFor format w) (h : Decimals format w) :
    ∃ k, 1 ≤ k ∧ pointLine w = pointLine { w with precision := k } := by
  rcases h with h | h
  · exact ⟨w.precision, h, rfl⟩
  · exact ⟨1, Nat.le_refl _, precision_free hw h 1⟩

/-- **C118 in part**: what a fresh writer wrote can be read with the same format string and delimiter into any layout that has
    the attributes of the format, and an equal writer writes exactly the same text for the points that were read. Missing:
    formats with `c` or `u` but without `r` (`C118_violated`), and coordinates and times without decimal places
    (`C118_precision_violated`). -/
theorem C118_partial (hl : Solid l) (hb : ShowsPoints b l ps) (hw : WriterFor format w)
    (hr : 'c' ∈ format ∨ 'u' ∈ format → 'r' ∈ format) (hp : Decimals format w) (hd : ClearDelimiter w.delimiter)
    (hempty : w.text = []) (hattr : ∀ d, Described format d → d ∈ l.attributes.map Member.definition) :
    ∃ w', w.write b = .ok w' ∧ ∀ order : List AttrDef → List AttrDef, (∀ ds, (order ds).Perm ds) →
      ∃ r, RawAsciiReader.fromRead order w'.text format w.delimiter = .ok r ∧
        ∀ target : PointLayout, Solid target →
          (∀ d, Described format d → d ∈ target.attributes.map Member.definition) →
          WrittenAgain VectorBuffer r target ps.length w w' ∧ WrittenAgain HashMapBuffer r target ps.length w w' := by
  have hf := closed_format hw hr
  obtain ⟨k, hk, hpl⟩ := decimals_lines hw hp
  obtain ⟨ls, h1, h3⟩ := written_lines (w := { w with precision := k }) hl hb hf hw hk hd hattr
  have h2 : w.write b = .ok { w with text := (ls.map (· ++ ['\n'])).flatten } := by
    rw [write_eq hl hb w, hpl, h1, hempty]
    rfl
  refine ⟨_, h2, fun order ho => ?_⟩
  obtain ⟨hv, hm⟩ := format_types hw
  obtain ⟨r, g1, g2, -⟩ := (C50_format_reader ho (ls.map (· ++ ['\n'])).flatten format w.delimiter).1 hv
  refine ⟨r, g1, fun target ht hcov => ?_⟩
  have hat := g2 ls h3
  have hsizes : ∀ p ∈ ps, ∀ d v, p.get d = some v → v.length = d.size := fun p hpp => (points_typed hl hb hpp).2
  have hlen : ls.length = ps.length := (mapM_ok_getElem h1).1
  have hgood : ∀ line ∈ ls.take ps.length, ReadableLine format w.delimiter line := fun line hline =>
    lines_readable (w := { w with precision := k }) hw hk hd hsizes h1 line (List.mem_of_mem_take hline)
  have hts : r.parseLayout = w.parseLayout := Except.ok.inj (hat.format_eq.symm.trans hw)
  have hcols : ∀ c, some c ∈ w.parseLayout.map columnOf → c.attr ∈ target.attributes.map Member.definition := by
    intro c hcm
    obtain ⟨t, k1, k2⟩ := List.mem_map.1 hcm
    exact hcov _ ((described_iff hm _).2 ⟨t, k1, c, k2, rfl⟩)
  have htake : ls.take ps.length = ls := List.take_of_length_le (by omega)
  have hzero : ps.length - ls.length = 0 := by omega
  constructor
  · obtain ⟨r', news, e1, e2, e3⟩ := new_records (β := VectorBuffer) hat ht hgood
    rw [hzero, List.replicate_zero, List.append_nil] at e1 e2
    rw [htake, hat.delimiter_eq, hts] at e3
    refine ⟨_, r', e1, ?_⟩
    rw [write_eq ht (HoldsRecords.shows (β := VectorBuffer) ht e2) w, hpl,
      lines_again (w := { w with precision := k }) hf hk hd hcols hsizes h1 e3, hempty]
    rfl
  · obtain ⟨r', news, e1, e2, e3⟩ := new_records (β := HashMapBuffer) hat ht hgood
    rw [hzero, List.replicate_zero, List.append_nil] at e1 e2
    rw [htake, hat.delimiter_eq, hts] at e3
    refine ⟨_, r', e1, ?_⟩
    rw [write_eq ht (HoldsRecords.shows (β := HashMapBuffer) ht e2) w, hpl,
      lines_again (w := { w with precision := k }) hf hk hd hcols hsizes h1 e3, hempty]
    rfl

end

/-! ## The full claim is false -/

/-- **C118 violated** for `c`: the return numbers that are written as classes are read as classes, so other numbers are
    written the second time. -/
theorem C118_violated : ∃ (w w' w'' : RawAsciiWriter) (r r' : RawAsciiReader) (t : VectorBuffer),
    RawAsciiWriter.fromWrite "c".toList = .ok w ∧ w.write sampleBuffer = .ok w' ∧
    RawAsciiReader.fromRead id w'.text "c".toList w.delimiter = .ok r ∧
    PointReader.readInto r (OwningBuffer.resize (MakeBufferFromLayout.newFromLayout sampleLayout : VectorBuffer) 2) 2 =
      .ok (2, t, r') ∧
    w.write t = .ok w'' ∧ w'.text = "1\n3\n".toList ∧ w''.text = "0\n0\n".toList := by
  have hl : Solid sampleLayout := by decide +kernel
  have h1 := HoldsRecords.shows (β := VectorBuffer) hl (rs := [[6, 1], [2, 3]]) (by unfold AllLen; decide)
  have h2 := HoldsRecords.shows (β := VectorBuffer) hl (rs := [[1, 0], [3, 0]]) (by unfold AllLen; decide)
  have e1 := write_eq hl h1 ⟨[], ", ".toList, 5, [.classification]⟩
  have e2 := write_eq hl h2 ⟨[], ", ".toList, 5, [.classification]⟩
  exact ⟨⟨[], ", ".toList, 5, [.classification]⟩, ⟨"1\n3\n".toList, ", ".toList, 5, [.classification]⟩,
    ⟨"0\n0\n".toList, ", ".toList, 5, [.classification]⟩, _, _, ⟨[1, 0, 3, 0], sampleLayout, 2⟩, rfl, e1.trans (by decide +kernel),
    rfl, rfl, e2.trans (by decide +kernel), rfl, rfl⟩

/-- Times only. -/
def timeLayout : PointLayout := ⟨[⟨Las.gpsTime, 0⟩], 8, 8⟩

/-- **C118 violated** without decimal places: the time 0 is written as an empty line, which cannot be read. -/
theorem C118_precision_violated : ∃ (w w' : RawAsciiWriter) (r : RawAsciiReader),
    WriterFor "t".toList w ∧ w.precision = 0 ∧ w.text = [] ∧
    w.write (HoldsRecords.ofRecords timeLayout [zeros 8] : VectorBuffer) = .ok w' ∧ w'.text = "\n".toList ∧
    RawAsciiReader.fromRead id w'.text "t".toList w.delimiter = .ok r ∧
    PointReader.readInto r (OwningBuffer.resize (MakeBufferFromLayout.newFromLayout timeLayout : VectorBuffer) 1) 1 =
      .error .err := by
  have hl : Solid timeLayout := by decide +kernel
  have e := write_eq hl (HoldsRecords.shows (β := VectorBuffer) hl (rs := [zeros 8]) (by unfold AllLen; decide))
    ⟨[], ", ".toList, 0, [.gpsTime]⟩
  exact ⟨⟨[], ", ".toList, 0, [.gpsTime]⟩, ⟨"\n".toList, ", ".toList, 0, [.gpsTime]⟩, _, rfl, rfl, rfl,
    e.trans (by decide +kernel), rfl, rfl, rfl⟩

/-! ## The theorem applies -/

/-- The times 1.5 and -1/3. -/
def twoTimes : List Bytes :=
  [[0, 0, 0, 0, 0, 0, 0xF8, 0x3F], [0x55, 0x55, 0x55, 0x55, 0x55, 0x55, 0xD5, 0xBF]]

/-- Times that no text with five places shows exactly are read into a layout with return numbers. -/
example : ∃ w', (⟨[], ", ".toList, 5, [.gpsTime]⟩ : RawAsciiWriter).write
      (HoldsRecords.ofRecords timeLayout twoTimes : VectorBuffer) = .ok w' ∧
    ∃ r, RawAsciiReader.fromRead id w'.text "t".toList ", ".toList = .ok r ∧
      WrittenAgain HashMapBuffer r ⟨[⟨Las.returnNumber, 0⟩, ⟨Las.gpsTime, 8⟩], 16, 8⟩ 2 ⟨[], ", ".toList, 5, [.gpsTime]⟩ w' := by
  have hl : Solid timeLayout := by decide +kernel
  have hb := HoldsRecords.shows (β := VectorBuffer) hl (rs := twoTimes) (by unfold AllLen; decide)
  have hmem : ∀ d, Described "t".toList d → d = Las.gpsTime := by
    rintro d ⟨i, c, h, rfl⟩
    rcases i with _ | i
    · cases h; rfl
    · cases h
  obtain ⟨w', h1, h2⟩ := C118_partial (format := "t".toList) (w := ⟨[], ", ".toList, 5, [.gpsTime]⟩) hl hb rfl (by decide)
    (.inl (by decide)) ⟨',', [' '], rfl, by decide, by decide, by decide⟩ rfl (by intro d hd; rw [hmem d hd]; decide)
  obtain ⟨r, h3, h4⟩ := h2 id fun _ => .refl _
  exact ⟨w', h1, r, h3, (h4 _ (by decide +kernel) (by intro d hd; rw [hmem d hd]; decide)).2⟩

/-- Return numbers and classes are written without decimal places, in this order; the points have other classes. -/
example : ∃ w', (⟨[], ";".toList, 0, [.returnNumber, .classification]⟩ : RawAsciiWriter).write
      (HoldsRecords.ofRecords sampleLayout [[6, 1], [2, 3]] : VectorBuffer) = .ok w' ∧
    ∃ r, RawAsciiReader.fromRead id w'.text "rc".toList ";".toList = .ok r ∧
      WrittenAgain VectorBuffer r sampleLayout 2 ⟨[], ";".toList, 0, [.returnNumber, .classification]⟩ w' := by
  have hl : Solid sampleLayout := by decide +kernel
  have hb := HoldsRecords.shows (β := VectorBuffer) hl (rs := [[6, 1], [2, 3]]) (by unfold AllLen; decide)
  have hmem : ∀ d, Described "rc".toList d → d ∈ sampleLayout.attributes.map Member.definition := by
    rintro d ⟨i, c, h, rfl⟩
    rcases i with _ | _ | i
    · cases h; decide
    · cases h; decide
    · cases h
  obtain ⟨w', h1, h2⟩ := C118_partial (format := "rc".toList) (w := ⟨[], ";".toList, 0, [.returnNumber, .classification]⟩) hl hb
    rfl (by decide) (.inr (by decide)) ⟨';', [], rfl, by decide, by decide, by decide⟩ rfl hmem
  obtain ⟨r, h3, h4⟩ := h2 id fun _ => .refl _
  exact ⟨w', h1, r, h3, (h4 _ hl hmem).1⟩

end Pasture.Props
