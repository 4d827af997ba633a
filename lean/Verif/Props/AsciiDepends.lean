import Verif.Props.Ascii
import Verif.Props.TwoSteps

/-!
# C113: ASCII output depends on the attributes of the format only
-/

namespace Pasture.Props

open Spec Ascii BorrowedBuffer

/-- If `r` is in the format, all that is written is in the format. -/
theorem closed_format {format : List Char} {w : RawAsciiWriter} (hw : WriterFor format w)
    (hr : 'c' ∈ format ∨ 'u' ∈ format → 'r' ∈ format) : Closed w.parseLayout := by
  obtain ⟨-, hm⟩ := format_types hw
  have hreturn : 'r' ∈ format → PointDataType.returnNumber ∈ w.parseLayout := by
    intro h
    have h1 : some (columnOf .returnNumber) ∈ w.parseLayout.map fun t => some (columnOf t) :=
      hm ▸ List.mem_map.2 ⟨'r', h, rfl⟩
    obtain ⟨t, h2, h3⟩ := List.mem_map.1 h1
    have h4 : columnOf t = columnOf .returnNumber := Option.some.inj h3
    cases t <;> first
      | exact h2
      | exact absurd (congrArg (Option.map Column.attr) h4) (by decide)
  have hletter : ∀ t ∈ w.parseLayout, ∃ ch ∈ format, meaning ch = some (columnOf t) := by
    intro t ht
    have h1 : some (columnOf t) ∈ format.map meaning := hm ▸ List.mem_map.2 ⟨t, ht, rfl⟩
    obtain ⟨ch, h2, h3⟩ := List.mem_map.1 h1
    exact ⟨ch, h2, h3⟩
  intro t ht
  obtain ⟨ch, h1, h2⟩ := hletter t ht
  cases t
  case classification =>
    apply hreturn (hr (.inl _))
    unfold meaning at h2
    split at h2
    all_goals first
      | exact h1
      | exact absurd (congrArg (Option.map (Option.map Column.attr)) h2) (by decide)
  case userData =>
    apply hreturn (hr (.inr _))
    unfold meaning at h2
    split at h2
    all_goals first
      | exact h1
      | exact absurd (congrArg (Option.map (Option.map Column.attr)) h2) (by decide)
  all_goals exact ht

theorem described_written {format : List Char} {w : RawAsciiWriter} (hw : WriterFor format w) (hc : Closed w.parseLayout)
    {d : AttrDef} (h : Described (writtenFormat format) d) : Described format d := by
  obtain ⟨-, hm⟩ := format_types hw
  obtain ⟨-, hm'⟩ := format_types (written_types hw)
  obtain ⟨t, h1, h2⟩ := (described_iff hm' d).1 h
  obtain ⟨t', h3, rfl⟩ := List.mem_map.1 h1
  exact (described_iff hm d).2 ⟨_, hc t' h3, h2⟩

/-- The points have the same values, or both none, for the attributes that the format describes. -/
def AgreeOn (format : List Char) (p q : Point) : Prop := ∀ d, Described format d → p.get d = q.get d

theorem pointLine_agree {format : List Char} {w : RawAsciiWriter} (hw : WriterFor format w) {p q : Point}
    (h : AgreeOn (writtenFormat format) p q) : pointLine w p = pointLine w q := by
  obtain ⟨_, hm⟩ := format_types (written_types hw)
  have key : ∀ t ∈ w.parseLayout, pointText w.precision p t = pointText w.precision q t := by
    intro t ht
    unfold pointText
    cases hc : columnOf (writtenAs t) with
    | none => rfl
    | some c => simp only [h c.attr ((described_iff hm _).2 ⟨writtenAs t, List.mem_map_of_mem ht, c, hc, rfl⟩)]
  unfold pointLine
  congr 1
  revert key
  generalize w.parseLayout = ts
  intro key
  induction ts with
  | nil => rfl
  | cons t ts ih =>
    rw [List.mapM_cons, List.mapM_cons, key t (List.mem_cons_self ..), ih fun x hx => key x (List.mem_cons_of_mem _ hx)]

theorem lines_agree {format : List Char} {w : RawAsciiWriter} (hw : WriterFor format w) {ps qs : List Point}
    (h : List.Forall₂ (AgreeOn (writtenFormat format)) ps qs) : ps.mapM (pointLine w) = qs.mapM (pointLine w) := by
  induction h with
  | nil => rfl
  | cons h _ ih => rw [List.mapM_cons, List.mapM_cons, pointLine_agree hw h, ih]

theorem written_agree {β γ : Type} [BorrowedBuffer β] [BorrowedBuffer γ] {b : β} {c : γ} {l l' : PointLayout} (hl : Solid l)
    (hl' : Solid l') {ps qs : List Point} (hb : ShowsPoints b l ps) (hc : ShowsPoints c l' qs) {format : List Char}
    {w : RawAsciiWriter} (hw : WriterFor format w) (h : List.Forall₂ (AgreeOn (writtenFormat format)) ps qs) :
    w.write b = w.write c := by
  rw [write_eq hl hb, write_eq hl' hc, lines_agree hw h]

/-- **C113 in part**: if two buffers, of whatever kinds and layouts, hold points with the same values for the attributes that
    the format describes, then writing the one or the other gives the same text, or the same error. Missing: formats
    with `c` or `u` but without `r` (`C113_violated`). -/
theorem C113_partial {β γ : Type} [BorrowedBuffer β] [BorrowedBuffer γ] {b : β} {c : γ} {l l' : PointLayout} (hl : Solid l)
    (hl' : Solid l') {ps qs : List Point} (hb : ShowsPoints b l ps) (hc : ShowsPoints c l' qs) {format : List Char}
    (hr : 'c' ∈ format ∨ 'u' ∈ format → 'r' ∈ format) {w : RawAsciiWriter} (hw : WriterFor format w)
    (h : List.Forall₂ (AgreeOn format) ps qs) : w.write b = w.write c :=
  written_agree hl hl' hb hc hw (h.imp fun _ _ ha d hd => ha d (described_written hw (closed_format hw hr) hd))

/-- Conversion keeps the values of attributes that are in both layouts. -/
theorem converted_agrees {l l' : PointLayout} (hl : Solid l) (hl' : Solid l') {format : List Char}
    (hk : ∀ d, Described format d → (d ∈ l.attributes.map Member.definition ∧ d ∈ l'.attributes.map Member.definition))
    (r : Bytes) : AgreeOn format (pointOf l r) ((defaultPlan l).apply (pointOf l r) (zeroPoint l')) := by
  intro d hd
  obtain ⟨h1, h2⟩ := hk d hd
  obtain ⟨m, hm, rfl⟩ := List.mem_map.1 h1
  obtain ⟨t, ht, he⟩ := List.mem_map.1 h2
  have hz : (zeroPoint l').get m.definition = some (List.replicate t.size 0) := by
    rw [← he]
    exact Las.lookup_map_def (g := fun m => List.replicate m.size (0 : Byte)) ht hl'.names
  have hget : Point.get (pointOf l r) m.definition = some (window r m.offset m.size) :=
    Las.lookup_map_def (g := fun m => window r m.offset m.size) hm hl.names
  have hp := defaultPlan_of_name hl hm (t := t) (congrArg AttrDef.name he)
  rw [show t.datatype = m.datatype from congrArg AttrDef.datatype he, conversion_to_same, he] at hp
  rw [apply_get, hz, hp]
  simp only [Option.map_some, hget]
  rfl

/-- **C113 in part**: conversion to another layout that has the attributes of the format does not change the text. -/
theorem C113_converted_partial {σ : Type} [BorrowedBuffer σ] [AsMemory σ] (source : σ) (l l' : PointLayout) (hl : Solid l)
    (hl' : Solid l') (ps : List Point) (h : SourceShows source l ps)
    (hc : ∃ c, BufferLayoutConverter.forLayoutsWithDefault l l' = .ok c) {format : List Char}
    (hr : 'c' ∈ format ∨ 'u' ∈ format → 'r' ∈ format) {w : RawAsciiWriter} (hw : WriterFor format w)
    (hk : ∀ d, Described format d → (d ∈ l.attributes.map Member.definition ∧ d ∈ l'.attributes.map Member.definition)) :
    (∃ c, atOnce VectorBuffer l l' source = .ok c ∧ w.write c = w.write source) ∧
    ∃ c, atOnce HashMapBuffer l l' source = .ok c ∧ w.write c = w.write source := by
  have hp := (C28_with_default l l' hl').1.1 hc
  obtain ⟨⟨a, ha, sa⟩, ⟨b, hb, sb⟩⟩ := at_once source l l' hl hl' ps h hp
  have key : List.Forall₂ (AgreeOn format) ps (ps.map fun p => (defaultPlan l).apply p (zeroPoint l')) := by
    rw [List.forall₂_map_right_iff, List.forall₂_same]
    intro p hp'
    obtain ⟨i, hi⟩ := List.mem_iff_getElem?.1 hp'
    obtain ⟨r, _, _, rfl⟩ := h.points.getPoint_ok i p (zeros l.size) hi (by simp [zeros])
    exact converted_agrees hl hl' hk r
  exact ⟨⟨a, ha, (C113_partial hl hl' h.points sa.points hr hw key).symm⟩,
    ⟨b, hb, (C113_partial hl hl' h.points sb.points hr hw key).symm⟩⟩

/-! ## The full claim is false -/

theorem sample_solid : Solid sampleLayout := ⟨by decide, by decide, by decide, by decide, by decide⟩

theorem sample_written (w : RawAsciiWriter) (r : Bytes) (hr : r.length = 2) :
    w.write (Interleaved.ofRecords sampleLayout [r] : VectorBuffer) = ([pointOf sampleLayout r].mapM (pointLine w)).map fun ls =>
      { w with text := w.text ++ (ls.map (· ++ ['\n'])).flatten } :=
  write_eq sample_solid (interleaved_shows_points sample_solid (rs := [r])
    (by intro x hx; rw [List.mem_singleton.1 hx]; exact hr)) w

/-- **C113 violated**: the format `c` describes the classification; two points of class 6 with different return numbers are
    written differently. -/
theorem C113_violated :
    ∃ w u v, RawAsciiWriter.fromWrite "c".toList = .ok w ∧
      w.write (Interleaved.ofRecords sampleLayout [[6, 1]] : VectorBuffer) = .ok u ∧
      w.write (Interleaved.ofRecords sampleLayout [[6, 2]] : VectorBuffer) = .ok v ∧ u.text = "1\n".toList ∧ v.text = "2\n".toList ∧
      (∀ d, Described "c".toList d ↔ d = Las.classification) ∧
      AgreeOn "c".toList (pointOf sampleLayout [6, 1]) (pointOf sampleLayout [6, 2]) := by
  have hd : ∀ d, Described "c".toList d ↔ d = Las.classification := by
    intro d
    obtain ⟨_, hm⟩ := format_types (show getParseLayout "c".toList = .ok [.classification] from rfl)
    rw [described_iff hm]
    constructor
    · rintro ⟨t, ht, c, hc, rfl⟩
      rw [List.mem_singleton.1 ht] at hc
      cases hc
      rfl
    · rintro rfl
      exact ⟨_, List.mem_singleton.2 rfl, _, rfl, rfl⟩
  refine ⟨⟨[], ", ".toList, 5, [.classification]⟩, ⟨"1\n".toList, ", ".toList, 5, [.classification]⟩,
    ⟨"2\n".toList, ", ".toList, 5, [.classification]⟩, rfl, ?_, ?_, rfl, rfl, hd, ?_⟩
  · rw [sample_written _ _ rfl]
    decide +kernel
  · rw [sample_written _ _ rfl]
    decide +kernel
  intro d h
  rw [(hd d).1 h]
  decide +kernel

/-! ### A concrete case

Return numbers, once with classifications in front of them and once alone. -/

example : ∃ w, WriterFor "r".toList w ∧ ('c' ∈ "r".toList ∨ 'u' ∈ "r".toList → 'r' ∈ "r".toList) ∧
    (∀ d, Described "r".toList d → (d ∈ sampleLayout.attributes.map Member.definition ∧
      d ∈ (⟨[⟨Las.returnNumber, 0⟩], 1, 1⟩ : PointLayout).attributes.map Member.definition)) ∧
    (∃ c, BufferLayoutConverter.forLayoutsWithDefault sampleLayout ⟨[⟨Las.returnNumber, 0⟩], 1, 1⟩ = .ok c) ∧
    (w.write (Interleaved.ofRecords sampleLayout [[6, 1]] : VectorBuffer)).map (fun w => w.text) = .ok "1\n".toList := by
  refine ⟨⟨[], ", ".toList, 5, [.returnNumber]⟩, rfl, by decide, ?_, ?_, by rw [sample_written _ _ rfl]; decide +kernel⟩
  · intro d h
    obtain ⟨_, hm⟩ := format_types (show getParseLayout "r".toList = .ok [.returnNumber] from rfl)
    rw [described_iff hm] at h
    obtain ⟨t, ht, c, hc, rfl⟩ := h
    rw [List.mem_singleton.1 ht] at hc
    cases hc
    decide
  · exact (C28_with_default _ _ ⟨by decide, by decide, by decide, by decide, by decide⟩).1.2 (by decide +kernel)

end Pasture.Props
