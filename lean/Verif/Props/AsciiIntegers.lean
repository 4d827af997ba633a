import Verif.Props.AsciiAgain

/-!
# C51 for integers: they are written alike with every precision
-/

namespace Pasture.Props

open Spec Spec.Ascii Pasture.Ascii BorrowedBuffer Las

section
variable {γ : Type} [BorrowedBuffer γ] {b : γ} {l : PointLayout} {ps : List Point} {format : List Char} {w : RawAsciiWriter}

/-- Without coordinates and times there are integers only. -/
theorem integer_columns (h : ∀ ch ∈ ['x', 'y', 'z', 't'], ch ∉ format) {i : Nat} {c : Column}
    (hc : describes format i = some c) : c.type.isInt = true := by
  unfold describes at hc
  cases hf : format[i]? with
  | none => rw [hf] at hc; cases hc
  | some ch =>
    rw [hf] at hc
    have h1 := List.mem_of_getElem? hf
    have h3 : ch ≠ 'x' ∧ ch ≠ 'y' ∧ ch ≠ 'z' ∧ ch ≠ 't' := by
      refine ⟨?_, ?_, ?_, ?_⟩ <;> rintro rfl <;> exact h _ (by decide) h1
    simp only [Option.bind_some] at hc
    unfold meaning at hc
    split at hc
    all_goals first
      | exact absurd rfl h3.1
      | exact absurd rfl h3.2.1
      | exact absurd rfl h3.2.2.1
      | exact absurd rfl h3.2.2.2
      | (cases hc <;> rfl)

theorem recovered_precision (h : ∀ ch ∈ ['x', 'y', 'z', 't'], ch ∉ format) {k k' : Nat} {p q : Point}
    (hr : Recovered format k p q) : Recovered format k' p q := by
  intro i c v x hi hv hx
  have := hr i c v x hi hv hx
  rw [readNum_int (integer_columns h hi)] at this ⊢
  exact this

theorem writes_precision {c : Column} (h : c.type.isInt = true) {k k' : Nat} {v : Bytes} {s : List Char}
    (hw : c.Writes k v s) : c.Writes k' v s := by
  unfold Column.Writes at hw ⊢
  rw [readNum_int h] at hw ⊢
  exact hw

theorem line_precision (h : ∀ ch ∈ ['x', 'y', 'z', 't'], ch ∉ format) {k k' : Nat} {d : List Char} {p : Point} {s : List Char}
    (hl : LineOfPoint format k d p s) : LineOfPoint format k' d p s := by
  obtain ⟨cols, h1, h2⟩ := hl
  refine ⟨cols, ⟨h1.count, fun i s hs => ?_⟩, h2⟩
  have := h1.text i s hs
  cases hd : describes format i with
  | none => rw [hd] at this; exact this
  | some c =>
    rw [hd] at this
    obtain ⟨v, h3, h4⟩ := this
    exact ⟨v, h3, writes_precision (integer_columns h hd) h4⟩

/-- The precision does not matter for the text. -/
theorem write_precision (hl : Solid l) (hb : ShowsPoints b l ps) (hw : WriterFor format w)
    (h : ∀ ch ∈ ['x', 'y', 'z', 't'], ch ∉ format) (k : Nat) {w' : RawAsciiWriter}
    (hok : { w with precision := k }.write b = .ok w') : w.write b = .ok { w' with precision := w.precision } := by
  rw [write_eq hl hb] at hok ⊢
  rw [precision_free hw h k]
  cases hm : ps.mapM (pointLine { w with precision := k }) with
  | error e => rw [hm] at hok; cases hok
  | ok ls => rw [hm] at hok; cases hok; rfl

/-- **C51 in part**, the lines without decimal places: if the format has no coordinates, times, `c` and `u`, every line has the
    columns of its point. -/
theorem C51_integers_lines_partial (hl : Solid l) (hb : ShowsPoints b l ps) (hc : 'c' ∉ format) (hu : 'u' ∉ format)
    (h : ∀ ch ∈ ['x', 'y', 'z', 't'], ch ∉ format) (hw : WriterFor format w)
    (hattr : ∀ d, Described format d → d ∈ l.attributes.map Member.definition) :
    ∃ w' lines, w.write b = .ok w' ∧ w'.text = w.text ++ lines.flatten ∧
      List.Forall₂ (LineOfPoint format w.precision w.delimiter) ps lines ∧
      WriterFor format w' ∧ w'.delimiter = w.delimiter ∧ w'.precision = w.precision := by
  obtain ⟨w', lines, h1, h2, h3, h4, h5, -⟩ := C51_lines_partial hl hb hc hu (w := { w with precision := 1 }) hw (Nat.le_refl _) hattr
  exact ⟨_, lines, write_precision hl hb hw h 1 h1, h2, h3.imp fun _ _ => line_precision h, h4, h5, rfl⟩

/-- **C51 in part**, the round trip into an interleaved buffer without decimal places: the points are recovered. -/
theorem C51_integers_interleaved_partial (hl : Solid l) (hb : ShowsPoints b l ps) (hc : 'c' ∉ format) (hu : 'u' ∉ format)
    (h : ∀ ch ∈ ['x', 'y', 'z', 't'], ch ∉ format) (hw : WriterFor format w) (hd : ClearDelimiter w.delimiter)
    (hempty : w.text = []) (hattr : ∀ d, Described format d → d ∈ l.attributes.map Member.definition) :
    ∃ w' ls, w.write b = .ok w' ∧ Lines w'.text ls ∧ ls.length = ps.length ∧
      ∀ r : RawAsciiReader, ReaderAt format w.delimiter r ls →
        ∀ t : VectorBuffer, Solid t.layout → VectorConsistent t → ∀ old : List Point, ShowsPoints t t.layout old →
          ps.length ≤ old.length →
          ∃ t' r' news, PointReader.readInto r t ps.length = .ok (ps.length, t', r') ∧
            ShowsPoints t' t.layout (overwrite old 0 news) ∧
            List.Forall₂ (Recovered format w.precision) ps news := by
  obtain ⟨w', ls, h1, h2, h3, h4⟩ := C51_round_trip_interleaved_partial hl hb hc hu (w := { w with precision := 1 }) hw (Nat.le_refl _) hd
    hempty hattr
  refine ⟨_, ls, write_precision hl hb hw h 1 h1, h2, h3, fun r hr t ht hcons old hold hle => ?_⟩
  obtain ⟨t', r', news, k1, k2, k3⟩ := h4 r hr t ht hcons old hold hle
  exact ⟨t', r', news, k1, k2, k3.imp fun _ _ => recovered_precision h⟩

/-- **C51 in part**, the round trip into a columnar buffer without decimal places. -/
theorem C51_integers_columnar_partial (hl : Solid l) (hb : ShowsPoints b l ps) (hc : 'c' ∉ format) (hu : 'u' ∉ format)
    (h : ∀ ch ∈ ['x', 'y', 'z', 't'], ch ∉ format) (hw : WriterFor format w) (hd : ClearDelimiter w.delimiter)
    (hempty : w.text = []) (hattr : ∀ d, Described format d → d ∈ l.attributes.map Member.definition) :
    ∃ w' ls, w.write b = .ok w' ∧ Lines w'.text ls ∧ ls.length = ps.length ∧
      ∀ r : RawAsciiReader, ReaderAt format w.delimiter r ls →
        ∀ t : HashMapBuffer, Solid t.layout → HashMapConsistent t → ∀ old : List Point, ShowsPoints t t.layout old →
          ps.length ≤ old.length →
          ∃ t' r' news, PointReader.readInto r t ps.length = .ok (ps.length, t', r') ∧
            ShowsPoints t' t.layout (overwrite old 0 news) ∧
            List.Forall₂ (Recovered format w.precision) ps news := by
  obtain ⟨w', ls, h1, h2, h3, h4⟩ := C51_round_trip_columnar_partial hl hb hc hu (w := { w with precision := 1 }) hw (Nat.le_refl _) hd
    hempty hattr
  refine ⟨_, ls, write_precision hl hb hw h 1 h1, h2, h3, fun r hr t ht hcons old hold hle => ?_⟩
  obtain ⟨t', r', news, k1, k2, k3⟩ := h4 r hr t ht hcons old hold hle
  exact ⟨t', r', news, k1, k2, k3.imp fun _ _ => recovered_precision h⟩

end

/-- The hypotheses of the theorems above are met. -/
example : ∃ w' lines, (⟨[], ";".toList, 0, [.returnNumber]⟩ : RawAsciiWriter).write
      (HoldsRecords.ofRecords sampleLayout [[6, 1], [2, 10]] : VectorBuffer) = .ok w' ∧ w'.text = List.flatten lines ∧
    lines.length = 2 := by
  have hl : Solid sampleLayout := by decide +kernel
  have hb := HoldsRecords.shows (β := VectorBuffer) hl (rs := [[6, 1], [2, 10]]) (by unfold AllLen; decide)
  obtain ⟨w', lines, h1, h2, h3, -⟩ := C51_integers_lines_partial (format := "r".toList)
    (w := ⟨[], ";".toList, 0, [.returnNumber]⟩) hl hb (by decide) (by decide) (by decide) rfl (by
      rintro d ⟨i, c, h, rfl⟩
      rcases i with _ | i
      · cases h; decide
      · cases h)
  exact ⟨w', lines, h1, h2, h3.length_eq.symm⟩

end Pasture.Props
