import Verif.Lemmas.FailedWritesText
import Verif.Spec.FailedWrites
import Verif.Props.FailedWrites

/-!
# C99 for PNTS and ASCII files
-/

namespace Pasture.Props

open Spec BorrowedBuffer

/-! ## The model says the same as before -/

/-- The functions that keep the writer return what the others return. -/
theorem C99_same {β : Type} [BorrowedBuffer β] (b : β) (order : Tiles3d.Converters → Tiles3d.Converters)
    (w₁ : Las.RawLasWriter) (w₂ : Las.RawLazWriter) (w₃ : Tiles3d.PntsWriter) (w₄ : Ascii.RawAsciiWriter) :
    forget (w₁.writeLeft b) = w₁.write b ∧ forget (w₂.writeLeft b) = w₂.write b ∧
      forget (w₃.writeLeft order b) = w₃.write order b ∧ forget (w₄.writeLeft b) = w₄.write b :=
  ⟨Las.forget_lasWrite w₁ b, Las.forget_lazWrite w₂ b, Tiles3d.forget_pntsWrite order w₃ b, Ascii.forget_asciiWrite w₄ b⟩

/-! ## PNTS -/

section Pnts

open Tiles3d Spec.Pnts PntsCalls

theorem flush_keeps {J : JsonText} {w w' : PntsWriter} (h : w.flush J = .ok w') :
    w'.expectedLayout = w.expectedLayout ∧ w'.defaultLayout = w.defaultLayout ∧ w'.cachedPoints = w.cachedPoints ∧
      w'.attributeConverters = w.attributeConverters := by
  unfold PntsWriter.flush at h
  split at h
  · cases h; exact ⟨rfl, rfl, rfl, rfl⟩
  · unfold PntsWriter.writeCachedPoints at h
    obtain ⟨_, _, h⟩ := bind_ok h
    obtain ⟨_, _, h⟩ := bind_ok h
    obtain ⟨_, _, h⟩ := bind_ok h
    obtain ⟨_, _, h⟩ := bind_ok h
    obtain ⟨_, _, h⟩ := bind_ok h
    obtain ⟨_, _, h⟩ := bind_ok h
    obtain ⟨_, _, h⟩ := bind_ok h
    cases h
    exact ⟨rfl, rfl, rfl, rfl⟩

/-- **C99**, PNTS files: whatever is written in whatever layouts, with flushes in between, all is as if the writes that
    failed had not been tried; a write fails if the layout of the points is not the one of the file, and only then. -/
theorem C99_pnts (J : JsonText) {order : Converters → Converters} (ho : ∀ c, (order c).Perm c) {l : PointLayout}
    (hl : Solid l) {center : Option (P3 F64)} {w : PntsWriter} (hw : openPnts l center = .ok w) (calls : List WriterCall) :
    goOnPnts J order w calls = runPnts J order w (calls.filter (WriterCall.fits l)) := by
  have key : ∀ (calls : List WriterCall) (w : PntsWriter), (∃ ps, Cached l w ps) →
      goOnPnts J order w calls = runPnts J order w (calls.filter (WriterCall.fits l)) := by
    intro calls
    induction calls with
    | nil => intro w _; rfl
    | cons c calls ih =>
      rintro w ⟨ps, hw⟩
      cases c with
      | flush =>
        show Except.bind (w.flush J) _ = Except.bind (w.flush J) _
        cases hf : w.flush J with
        | error e => rfl
        | ok w' =>
          obtain ⟨h1, h2, h3, h4⟩ := flush_keeps hf
          exact ih w' ⟨ps, cached_congr hw h1 h2 h3 h4⟩
      | write b =>
        show goOnPnts J order (goOn (w.writeLeft order b.buffer)) calls = _
        by_cases hb : b.layout = l
        · rw [List.filter_cons_of_pos (by exact decide_eq_true hb)]
          obtain ⟨cache, g1, g2⟩ := cached_write ho hw (hb ▸ b.shows)
          rw [of_forget ((forget_pntsWrite order w b.buffer).trans g1)]
          show _ = Except.bind (w.write order b.buffer) _
          rw [g1]
          exact ih _ ⟨_, g2⟩
        · rw [List.filter_cons_of_neg (by simpa [WriterCall.fits] using hb)]
          have he : w.expectedLayout = l := by
            obtain ⟨_, ⟨cl, fns, _, c⟩ | c⟩ := hw
            · exact c.expected
            · exact c.2.1
          have hf : w.writeLeft order b.buffer = .error (.panic, w) := by
            unfold PntsWriter.writeLeft
            rw [if_pos (by rw [b.shows.layout_eq, he]; exact hb)]
          rw [hf]
          exact ih w ⟨ps, hw⟩
  exact key calls w ⟨[], (open_waiting hl hw).cached⟩

/-- C99, PNTS: which writes fail. -/
theorem C99_pnts_fails (J : JsonText) {order : Converters → Converters} (ho : ∀ c, (order c).Perm c) {l : PointLayout}
    (hl : Solid l) {center : Option (P3 F64)} {w w' : PntsWriter} (hw : openPnts l center = .ok w) (calls : List WriterCall)
    (hcalls : goOnPnts J order w calls = .ok w') (b : Batch) :
    (b.layout = l → ∃ w'', w'.write order b.buffer = .ok w'') ∧
      (b.layout ≠ l → w'.writeLeft order b.buffer = .error (.panic, w')) := by
  have key : ∀ (calls : List WriterCall) (w : PntsWriter), (∃ ps, Cached l w ps) → goOnPnts J order w calls = .ok w' →
      ∃ ps, Cached l w' ps := by
    intro calls
    induction calls with
    | nil => intro w hw h; cases h; exact hw
    | cons c calls ih =>
      rintro w ⟨ps, hw⟩ h
      cases c with
      | flush =>
        change Except.bind (w.flush J) _ = _ at h
        cases hf : w.flush J with
        | error e => rw [hf] at h; cases h
        | ok w₁ =>
          rw [hf] at h
          obtain ⟨h1, h2, h3, h4⟩ := flush_keeps hf
          exact ih w₁ ⟨ps, cached_congr hw h1 h2 h3 h4⟩ h
      | write b =>
        change goOnPnts J order (goOn (w.writeLeft order b.buffer)) calls = _ at h
        by_cases hb : b.layout = l
        · obtain ⟨cache, g1, g2⟩ := cached_write ho hw (hb ▸ b.shows)
          rw [of_forget ((forget_pntsWrite order w b.buffer).trans g1)] at h
          exact ih _ ⟨_, g2⟩ h
        · have he : w.expectedLayout = l := by
            obtain ⟨_, ⟨cl, fns, _, c⟩ | c⟩ := hw
            · exact c.expected
            · exact c.2.1
          have hf : w.writeLeft order b.buffer = .error (.panic, w) := by
            unfold PntsWriter.writeLeft
            rw [if_pos (by rw [b.shows.layout_eq, he]; exact hb)]
          rw [hf] at h
          exact ih w ⟨ps, hw⟩ h
  obtain ⟨ps, hc⟩ := key calls w ⟨[], (open_waiting hl hw).cached⟩ hcalls
  refine ⟨fun hb => ?_, fun hb => ?_⟩
  · obtain ⟨cache, g1, _⟩ := cached_write ho hc (hb ▸ b.shows)
    exact ⟨_, g1⟩
  · have he : w'.expectedLayout = l := by
      obtain ⟨_, ⟨cl, fns, _, c⟩ | c⟩ := hc
      · exact c.expected
      · exact c.2.1
    unfold PntsWriter.writeLeft
    rw [if_pos (by rw [b.shows.layout_eq, he]; exact hb)]

/-- A PNTS file of points with colors, and a batch in another layout between two that fit. -/
example : ∃ w, openPnts surveyLayout none = .ok w ∧ Solid surveyLayout ∧
    goOnPnts Codec.codec List.reverse w [.write (survey 3), .write acceptedBatch, .write (survey 4), .flush] =
      runPnts Codec.codec List.reverse w [.write (survey 3), .write (survey 4), .flush] ∧
    w.writeLeft List.reverse acceptedBatch.buffer = .error (.panic, w) := by
  have hs : Storable surveyLayout := by
    have hst : storedAttributes surveyLayout =
        [("POSITION", ⟨"Position3D", .vec3f32⟩), ("RGB", ⟨"ColorRGB", .vec3u8⟩)] := by decide +kernel
    unfold Storable
    rw [hst]
    decide +kernel
  obtain ⟨w, hw⟩ := (C54_opens survey_solid none).2 hs
  have hne : acceptedBatch.layout ≠ surveyLayout := by
    show smallLayout ≠ surveyLayout
    decide +kernel
  have hfit : ∀ k, WriterCall.fits surveyLayout (.write (survey k)) = true := fun k =>
    decide_eq_true (show (survey k).layout = surveyLayout from rfl)
  refine ⟨w, hw, survey_solid, ?_, ?_⟩
  · rw [C99_pnts Codec.codec (order := List.reverse) (fun c => List.reverse_perm c) survey_solid hw]
    rw [List.filter_cons_of_pos (hfit 3), List.filter_cons_of_neg (by simpa [WriterCall.fits] using hne),
      List.filter_cons_of_pos (hfit 4)]
    rfl
  · exact (C99_pnts_fails Codec.codec (order := List.reverse) (fun c => List.reverse_perm c) survey_solid hw [] rfl
      acceptedBatch).2 hne

end Pnts

/-! ## ASCII -/

section Ascii

open Pasture.Ascii Spec.Ascii

/-- The columns before one that does not exist. -/
theorem text_missing {precision : Nat} {p : Point} {t : PointDataType} {c : Column} (hc : columnOf (writtenAs t) = some c)
    (hg : p.get c.attr = none) : pointText precision p t = .error .err := by
  unfold pointText
  simp only [hc, hg]

/-- C99, what ASCII files become: a write of some points that have no attribute for the column with number `i`, the first
    such column, fails. It leaves behind the texts of the columns before it of the first point, each followed by the
    delimiter, without an end of line. -/
theorem C99_ascii {β : Type} [BorrowedBuffer β] {b : β} {l : PointLayout} (hl : Solid l) {p : Point} {ps : List Point}
    (hb : ShowsPoints b l (p :: ps)) {format : List Char} {w : RawAsciiWriter} (hw : WriterFor format w)
    (hp : 1 ≤ w.precision) {i : Nat} {c : Column} (hi : describes (writtenFormat format) i = some c)
    (hmiss : c.attr ∉ l.attributes.map Member.definition)
    (hfirst : ∀ j c', j < i → describes (writtenFormat format) j = some c' →
      c'.attr ∈ l.attributes.map Member.definition) :
    ∃ cols, ColumnsOfPoint ((writtenFormat format).take i) w.precision p cols ∧
      w.writeLeft b = .error (.err, { w with text := w.text ++ (cols.map (· ++ w.delimiter)).flatten }) := by
  obtain ⟨_, hm⟩ := format_types (written_types hw)
  obtain ⟨ht, _⟩ := points_typed hl hb (p := p) (by simp)
  have hcol : ∀ j c', describes (writtenFormat format) j = some c' →
      ∃ t, w.parseLayout[j]? = some t ∧ columnOf (writtenAs t) = some c' := by
    intro j c' h
    unfold describes at h
    have hj : ((writtenFormat format).map meaning)[j]? = ((w.parseLayout.map writtenAs).map fun t => some (columnOf t))[j]? := by
      rw [hm]
    rw [List.getElem?_map, List.getElem?_map, List.getElem?_map] at hj
    cases hx : (writtenFormat format)[j]? with
    | none => rw [hx] at h; cases h
    | some x =>
      rw [hx] at h hj
      cases hy : w.parseLayout[j]? with
      | none => rw [hy] at hj; cases hj
      | some t =>
        rw [hy] at hj
        refine ⟨t, rfl, ?_⟩
        have e : meaning x = some (columnOf (writtenAs t)) := Option.some.inj hj
        change (meaning x).bind id = some c' at h
        rw [e] at h
        exact h
  obtain ⟨t, hti, htc⟩ := hcol i c hi
  obtain ⟨hil, hti'⟩ := List.getElem?_eq_some_iff.1 hti
  have hsplit : w.parseLayout = w.parseLayout.take i ++ t :: w.parseLayout.drop (i + 1) := by
    rw [← hti', List.cons_getElem_drop_succ, List.take_append_drop]
  have hok : ∀ t' ∈ w.parseLayout.take i, ∃ s, pointText w.precision p t' = .ok s := by
    intro t' ht'
    obtain ⟨j, hj⟩ := List.mem_iff_getElem?.1 ht'
    rw [List.getElem?_take] at hj
    split at hj
    · rename_i hji
      unfold pointText
      cases hcc : columnOf (writtenAs t') with
      | none => exact ⟨_, rfl⟩
      | some c' =>
        have hd : describes (writtenFormat format) j = some c' := by
          have hj' : ((writtenFormat format).map meaning)[j]? =
              ((w.parseLayout.map writtenAs).map fun t => some (columnOf t))[j]? := by rw [hm]
          rw [List.getElem?_map, List.getElem?_map, List.getElem?_map, hj] at hj'
          unfold describes
          cases hx : (writtenFormat format)[j]? with
          | none => rw [hx] at hj'; cases hj'
          | some x =>
            rw [hx] at hj'
            have e : meaning x = some (columnOf (writtenAs t')) := Option.some.inj hj'
            show (meaning x).bind id = _
            rw [e, hcc]
            rfl
        obtain ⟨v, hv⟩ := (ht c'.attr).1 (hfirst j c' hji hd)
        simp only [hv]
        exact ⟨_, rfl⟩
    · cases hj
  obtain ⟨cols, hc⟩ := mapM_ok_of hok
  have hg : p.get c.attr = none := by
    cases h : p.get c.attr with
    | none => rfl
    | some v => exact absurd ((ht c.attr).2 ⟨v, h⟩) hmiss
  refine ⟨cols, ?_, ascii_left hl hb w hsplit hc (text_missing htc hg)⟩
  refine columnsOfPoint (w := { w with parseLayout := (w.parseLayout.take i).map writtenAs }) ?_ (faithful_written _) hp ?_
  · show ((writtenFormat format).take i).map meaning = ((w.parseLayout.take i).map writtenAs).map _
    rw [List.map_take, hm, List.map_take, List.map_take]
  · show ((w.parseLayout.take i).map writtenAs).mapM _ = _
    rw [List.mapM_map, ← hc]
    congr 1
    funext t'
    show pointText w.precision p (writtenAs t') = pointText w.precision p t'
    unfold pointText
    rw [writtenAs_idem]

/-- **C99 in part**, ASCII files: if already the first column cannot be written, the writer is left as it was. Missing:
    the other columns (`C99_ascii`, `C99_ascii_violated`). -/
theorem C99_ascii_partial {β : Type} [BorrowedBuffer β] {b : β} {l : PointLayout} (hl : Solid l) {ps : List Point}
    (hb : ShowsPoints b l ps) (hne : ps ≠ []) {format : List Char} {w : RawAsciiWriter} (hw : WriterFor format w)
    (hp : 1 ≤ w.precision) {c : Column} (hi : describes (writtenFormat format) 0 = some c)
    (hmiss : c.attr ∉ l.attributes.map Member.definition) : w.writeLeft b = .error (.err, w) := by
  obtain ⟨p, ps', rfl⟩ := List.exists_cons_of_ne_nil hne
  obtain ⟨cols, h1, h2⟩ := C99_ascii hl hb hw hp hi hmiss (fun j _ hj => absurd hj (Nat.not_lt_zero j))
  rw [h2]
  have : cols = [] := List.eq_nil_of_length_eq_zero (by rw [h1.count]; simp)
  rw [this]
  simp

/-- Points with return numbers and intensities. -/
def returnLayout : PointLayout := ⟨[⟨Las.returnNumber, 0⟩, ⟨Las.intensity, 1⟩], 3, 1⟩

def returnBuffer : VectorBuffer := ⟨[7, 8, 0], returnLayout, 1⟩

/-- **C99 is violated** by ASCII files: points without intensities are written in the format `ri`, which fails; then one
    with return number 7 and intensity 8, which succeeds. Its line starts with the return number of another point. -/
theorem C99_ascii_violated :
    ∃ w w', RawAsciiWriter.fromWrite "ri".toList = .ok w ∧ w.write sampleBuffer = .error .err ∧
      w.write returnBuffer = .ok w' ∧ w'.text = "7, 8\n".toList ∧
      (goOn ((goOn (w.writeLeft sampleBuffer)).writeLeft returnBuffer)).text = "1, 7, 8\n".toList := by
  refine ⟨⟨[], ", ".toList, 5, [.returnNumber, .intensity]⟩, ⟨"7, 8\n".toList, ", ".toList, 5, [.returnNumber, .intensity]⟩,
    rfl, ?_, ?_, rfl, ?_⟩
  · decide +kernel
  · decide +kernel
  · decide +kernel

/-- The hypotheses of `C99_ascii` hold in that case, with the second column, and those of `C99_ascii_partial` for `ir`. -/
example : (∃ p ps, ShowsPoints sampleBuffer sampleLayout (p :: ps)) ∧ Solid sampleLayout ∧
    WriterFor "ri".toList ⟨[], ", ".toList, 5, [.returnNumber, .intensity]⟩ ∧
    (∃ c, describes (writtenFormat "ri".toList) 1 = some c ∧ c.attr ∉ sampleLayout.attributes.map Member.definition) ∧
    (∀ j c, j < 1 → describes (writtenFormat "ri".toList) j = some c →
      c.attr ∈ sampleLayout.attributes.map Member.definition) ∧
    (∃ c, describes (writtenFormat "ir".toList) 0 = some c ∧ c.attr ∉ sampleLayout.attributes.map Member.definition) := by
  have hl : Solid sampleLayout := ⟨by decide, by decide, by decide, by decide, by decide⟩
  refine ⟨⟨_, _, interleaved_shows_points (rs := [[6, 1], [2, 3]]) hl (by unfold AllLen; decide)⟩, hl, rfl, ⟨_, rfl, by decide⟩, ?_,
    ⟨_, rfl, by decide⟩⟩
  intro j c hj h
  obtain rfl : j = 0 := by omega
  cases h
  decide

end Ascii

end Pasture.Props
