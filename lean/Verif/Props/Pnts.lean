import Verif.Lemmas.PntsStored
import Verif.Lemmas.PntsCodec
import Verif.Props.LasWriter

/-!
# 3D Tiles point clouds: C54, C55, C56, and C47 for their writer
-/

namespace Pasture.Props

open Spec Spec.Pnts Tiles3d Las PntsWriter PntsReader BorrowedBuffer BorrowedMutBuffer OwningBuffer

/-! ## What the writer does -/

namespace PntsCalls

/-- The points `ps` are cached. The second case is that of layouts without any attribute that can be stored. -/
def Cached (l : PointLayout) (w : PntsWriter) (ps : List Point) : Prop :=
  Solid l ∧ ((∃ cl fns, Compatible l cl fns ∧ Caching l cl fns w ps) ∨
    (storedAttributes l = [] ∧ w.expectedLayout = l ∧ w.defaultLayout = PointLayout.default ∧ w.attributeConverters = [] ∧
      w.cachedPoints.layout = PointLayout.default ∧ w.cachedPoints.length = ps.length))

theorem cached_congr {l : PointLayout} {w w' : PntsWriter} {ps : List Point} (h : Cached l w ps)
    (h1 : w'.expectedLayout = w.expectedLayout) (h2 : w'.defaultLayout = w.defaultLayout)
    (h3 : w'.cachedPoints = w.cachedPoints) (h4 : w'.attributeConverters = w.attributeConverters) : Cached l w' ps := by
  obtain ⟨hl, ⟨cl, fns, c1, c2⟩ | c⟩ := h
  · exact ⟨hl, .inl ⟨cl, fns, c1, ⟨h1 ▸ c2.expected, h2 ▸ c2.cacheLayout, h4 ▸ c2.converters, by rw [h3]; exact c2.cache⟩⟩⟩
  · exact ⟨hl, .inr (by rw [h1, h2, h3, h4]; exact c)⟩

theorem cached_write {order : Converters → Converters} (ho : ∀ c, (order c).Perm c) {l : PointLayout} {w : PntsWriter}
    {ps qs : List Point} {β : Type} [BorrowedBuffer β] {b : β} (hw : Cached l w ps) (hb : ShowsPoints b l qs) :
    ∃ cache, w.write order b = .ok { w with cachedPoints := cache } ∧
      Cached l { w with cachedPoints := cache } (ps ++ qs) := by
  obtain ⟨hl, ⟨cl, fns, h1, h2⟩ | ⟨h1, h2, h3, h4, h5, h6⟩⟩ := hw
  · obtain ⟨cache, g1, g2⟩ := write_caching ho h1 h2 hb
    exact ⟨cache, g1, hl, .inl ⟨cl, fns, h1, g2⟩⟩
  · refine ⟨w.cachedPoints.resize (w.cachedPoints.length + qs.length), ?_, hl,
      .inr ⟨h1, h2, h3, h4, h5, by simp [HashMapBuffer.resize, h6]⟩⟩
    unfold PntsWriter.write
    rw [if_neg (by rw [hb.layout_eq, h2]; simp), if_neg (by
      rw [hb.layout_eq]
      intro he
      have h5' : BorrowedBuffer.layout w.cachedPoints = PointLayout.default := h5
      rw [h5'] at he
      exact hl.nonempty (by rw [he]; rfl)), h4, (ho []).eq_nil, hb.len_eq]
    rfl

/-- Waiting for the flush. -/
structure Waiting (l : PointLayout) (center : Option (P3 F64)) (w : PntsWriter) (ps : List Point) : Prop where
  cached : Cached l w ps
  requires : w.requiresFlush = true
  empty : w.writer = ⟨[], 0⟩
  center : w.rtcCenter = center

theorem waiting_flush (J : JsonText) {l : PointLayout} {center : Option (P3 F64)} {w : PntsWriter} {ps : List Point}
    (hw : Waiting l center w ps) :
    ∃ parts entries, PackedFrom 0 parts ∧ entries.Perm (tableEntries ps.length center parts) ∧
      (parts.map fun p => (p.semantic, p.data)).Perm
        ((storedAttributes l).map fun s => (s.1, columnOf s.2 (ps.map (storedPoint l)))) ∧
      (fileSize J entries parts < 2 ^ 32 → ∃ file,
        w.flush J = .ok { w with writer := ⟨file, file.length⟩, requiresFlush := false } ∧
        IsPnts J file ps.length center parts ∧ file.length = fileSize J entries parts) ∧
      (2 ^ 32 ≤ fileSize J entries parts → w.flush J = .error .panic) := by
  rw [← hw.center]
  obtain ⟨hl, ⟨cl, fns, h1, h2⟩ | ⟨h1, h2, h3, h4, h5, h6⟩⟩ := hw.cached
  · exact flush_cached J h1 h2 hw.requires hw.empty
  · have hno : w.defaultLayout.attributes = [] := by rw [h3]; rfl
    obtain ⟨entries, a1, a2, a3⟩ := flush_file J (col := fun _ => []) hw.requires hw.empty
      (by rw [hno]; exact ⟨fun m hm => absurd hm List.not_mem_nil, List.nodup_nil⟩) (by rw [hno]; intro m hm; cases hm)
    rw [show len w.cachedPoints = ps.length from h6] at a1 a2
    refine ⟨_, entries, parts_packed _ _ 0, a1, ?_, a2, a3⟩
    rw [hno, h1]
    exact List.Perm.nil

/-- After the flush nothing changes the file. -/
theorem done_run (J : JsonText) {order : Converters → Converters} (ho : ∀ c, (order c).Perm c) {l : PointLayout} :
    ∀ (calls : List WriterCall), (∀ b ∈ writesOf calls, b.layout = l) → ∀ (w : PntsWriter) (ps : List Point),
    Cached l w ps → w.requiresFlush = false → ∃ w', runPnts J order w calls = .ok w' ∧ w'.writer = w.writer ∧
      (∃ ps', Cached l w' ps') ∧ w'.requiresFlush = false := by
  intro calls
  induction calls with
  | nil => intro _ w ps hw hf; exact ⟨w, rfl, rfl, ⟨ps, hw⟩, hf⟩
  | cons c calls ih =>
    intro hb w ps hw hf
    cases c with
    | write b =>
      have hbl : b.layout = l := hb b (by simp [writesOf])
      obtain ⟨cache, g1, g2⟩ := cached_write ho hw (hbl ▸ b.shows)
      obtain ⟨w', e1, e2⟩ := ih (fun x hx => hb x (by unfold writesOf at hx ⊢; simp [hx])) _ _ g2 hf
      refine ⟨w', ?_, e2⟩
      unfold runPnts
      rw [g1]
      exact e1
    | flush =>
      obtain ⟨w', e1, e2⟩ := ih (fun x hx => hb x (by unfold writesOf at hx ⊢; simpa using hx)) w ps hw hf
      refine ⟨w', ?_, e2⟩
      unfold runPnts PntsWriter.flush
      rw [if_pos (by simp [hf])]
      exact e1

theorem waiting_run (J : JsonText) {order : Converters → Converters} (ho : ∀ c, (order c).Perm c) {l : PointLayout}
    {center : Option (P3 F64)} : ∀ (calls : List WriterCall), (∀ b ∈ writesOf calls, b.layout = l) →
    ∀ (w : PntsWriter) (ps : List Point), Waiting l center w ps →
    ∃ parts entries, PackedFrom 0 parts ∧ entries.Perm (tableEntries (ps ++ beforeFlush calls).length center parts) ∧
      (parts.map fun p => (p.semantic, p.data)).Perm
        ((storedAttributes l).map fun s => (s.1, columnOf s.2 ((ps ++ beforeFlush calls).map (storedPoint l)))) ∧
      (fileSize J entries parts < 2 ^ 32 → ∃ w', runPnts J order w (calls ++ [.flush]) = .ok w' ∧
        IsPnts J w'.writer.data (ps ++ beforeFlush calls).length center parts ∧
        w'.writer.data.length = fileSize J entries parts) ∧
      (2 ^ 32 ≤ fileSize J entries parts → runPnts J order w (calls ++ [.flush]) = .error .panic) := by
  intro calls
  induction calls with
  | nil =>
    intro _ w ps hw
    simp only [beforeFlush, List.append_nil]
    obtain ⟨parts, entries, h1, h2, h3, h4, h5⟩ := waiting_flush J hw
    refine ⟨parts, entries, h1, h2, h3, ?_, ?_⟩
    · intro hs
      obtain ⟨file, f1, f2, f3⟩ := h4 hs
      refine ⟨{ w with writer := ⟨file, file.length⟩, requiresFlush := false }, ?_, f2, f3⟩
      show (w.flush J).bind _ = _
      rw [f1]
      rfl
    · intro hs
      show (w.flush J).bind _ = _
      rw [h5 hs]
      rfl
  | cons c calls ih =>
    intro hb w ps hw
    cases c with
    | write b =>
      have hbl : b.layout = l := hb b (by simp [writesOf])
      obtain ⟨cache, g1, g2⟩ := cached_write ho hw.cached (hbl ▸ b.shows)
      obtain ⟨parts, entries, h1, h2, h3, h4, h5⟩ := ih (fun x hx => hb x (by unfold writesOf at hx ⊢; simp [hx])) _ _
        ⟨g2, hw.requires, hw.empty, hw.center⟩
      have hrun : runPnts J order w ((.write b :: calls) ++ [.flush]) =
          runPnts J order { w with cachedPoints := cache } (calls ++ [.flush]) := by
        rw [List.cons_append]
        conv => lhs; unfold runPnts
        rw [g1]
        rfl
      rw [hrun]
      simp only [beforeFlush, ← List.append_assoc]
      exact ⟨parts, entries, h1, h2, h3, h4, h5⟩
    | flush =>
      simp only [beforeFlush, List.append_nil]
      obtain ⟨parts, entries, h1, h2, h3, h4, h5⟩ := waiting_flush J hw
      refine ⟨parts, entries, h1, h2, h3, ?_, ?_⟩
      · intro hs
        obtain ⟨file, f1, f2, f3⟩ := h4 hs
        obtain ⟨w', e1, e2, _⟩ := done_run J ho (calls ++ [.flush]) (l := l) (fun x hx => hb x (by
          unfold writesOf at hx ⊢; simpa using hx)) { w with writer := ⟨file, file.length⟩, requiresFlush := false } ps
          (cached_congr hw.cached rfl rfl rfl rfl) rfl
        refine ⟨w', ?_, ?_, ?_⟩
        · show (w.flush J).bind _ = _
          rw [f1]
          exact e1
        · rw [e2]; exact f2
        · rw [e2]; exact f3
      · intro hs
        show (w.flush J).bind _ = _
        rw [h5 hs]
        rfl

theorem run_append (J : JsonText) (order : Converters → Converters) : ∀ (xs ys : List WriterCall) (w : PntsWriter),
    runPnts J order w (xs ++ ys) = (runPnts J order w xs).bind fun w => runPnts J order w ys := by
  intro xs
  induction xs with
  | nil => intro ys w; rfl
  | cons c xs ih =>
    intro ys w
    cases c with
    | write b =>
      show (w.write order b.buffer).bind _ = ((w.write order b.buffer).bind _).bind _
      cases w.write order b.buffer with
      | error e => rfl
      | ok w => exact ih ys w
    | flush =>
      show (w.flush J).bind _ = ((w.flush J).bind _).bind _
      cases w.flush J with
      | error e => rfl
      | ok w => exact ih ys w

theorem flushed_run (J : JsonText) {order : Converters → Converters} (ho : ∀ c, (order c).Perm c) {l : PointLayout}
    {center : Option (P3 F64)} : ∀ (calls : List WriterCall), (∀ b ∈ writesOf calls, b.layout = l) →
    ∀ (w w' : PntsWriter) (ps : List Point), Waiting l center w ps → runPnts J order w (calls ++ [.flush]) = .ok w' →
    (∃ ps', Cached l w' ps') ∧ w'.requiresFlush = false := by
  have hflush : ∀ (w : PntsWriter) (ps : List Point), Waiting l center w ps → ∀ (rest : List WriterCall) (w' : PntsWriter),
      (∀ b ∈ writesOf rest, b.layout = l) → runPnts J order w (.flush :: rest) = .ok w' →
      (∃ ps', Cached l w' ps') ∧ w'.requiresFlush = false := by
    intro w ps hw rest w' hb hrun
    obtain ⟨parts, entries, _, _, _, h4, h5⟩ := waiting_flush J hw
    unfold runPnts at hrun
    by_cases hs : fileSize J entries parts < 2 ^ 32
    · obtain ⟨file, f1, _, _⟩ := h4 hs
      rw [f1] at hrun
      obtain ⟨w2, e1, _, e3⟩ := done_run J ho rest hb { w with writer := ⟨file, file.length⟩, requiresFlush := false } ps
        (cached_congr hw.cached rfl rfl rfl rfl) rfl
      have hrun : runPnts J order { w with writer := ⟨file, file.length⟩, requiresFlush := false } rest = .ok w' := hrun
      rw [e1] at hrun
      cases hrun
      exact e3
    · rw [h5 (by omega)] at hrun
      cases hrun
  intro calls
  induction calls with
  | nil => intro _ w w' ps hw hrun; exact hflush w ps hw [] w' (by intro b hb; cases hb) hrun
  | cons c calls ih =>
    intro hb w w' ps hw hrun
    cases c with
    | write b =>
      have hbl : b.layout = l := hb b (by simp [writesOf])
      obtain ⟨cache, g1, g2⟩ := cached_write ho hw.cached (hbl ▸ b.shows)
      rw [List.cons_append] at hrun
      unfold runPnts at hrun
      rw [g1] at hrun
      exact ih (fun x hx => hb x (by unfold writesOf at hx ⊢; simp [hx])) { w with cachedPoints := cache } w' _
        ⟨g2, hw.requires, hw.empty, hw.center⟩ hrun
    | flush =>
      rw [List.cons_append] at hrun
      exact hflush w ps hw (calls ++ [.flush]) w' (fun x hx => hb x (by unfold writesOf at hx ⊢; simpa using hx)) hrun

theorem compatible_conv : ∀ (ms : List Member) (st st' : PointLayout × Converters),
    forLoop ms st compatibleStep = .ok st' →
    ∀ m ∈ ms, ∀ ty, supportedAttributes.lookup m.name = some ty → (conversion m.datatype ty).isSome := by
  intro ms
  induction ms with
  | nil => intro st st' _ m hm; cases hm
  | cons a ms ih =>
    intro st st' h
    rw [forLoop_cons] at h
    cases hs : compatibleStep st a with
    | error e => rw [hs] at h; cases h
    | ok st1 =>
      rw [hs] at h
      intro m hm ty hty
      rcases List.mem_cons.1 hm with rfl | hm
      · unfold compatibleStep at hs
        rw [hty] at hs
        dsimp only at hs
        cases ha : st.1.addAttribute ⟨m.name, ty⟩ .default with
        | error e => rw [ha] at hs; cases hs
        | ok l1 =>
          rw [ha] at hs
          simp only [bind, Except.bind] at hs
          cases hd : l1.getAttributeByName m.name with
          | none => rw [hd] at hs; cases hs
          | some dst =>
            rw [hd] at hs
            simp only [expectSome] at hs
            have hdd : dst.name = m.name ∧ dst.datatype = ty := by
              obtain ⟨a1, _, _, a4⟩ := PointLayout.addAttribute_ok.1 ha
              unfold PointLayout.getAttributeByName at hd
              have hold : st.1.attributes.find? (fun x => decide (x.name = m.name)) = none := by
                rw [List.find?_eq_none]
                intro x hx hxn
                exact a1 (List.mem_map.2 ⟨x, hx, of_decide_eq_true hxn⟩)
              rw [a4] at hd
              dsimp only at hd
              rw [List.find?_append, hold, Option.none_or] at hd
              obtain rfl := List.mem_singleton.1 (List.mem_of_find?_eq_some hd)
              exact ⟨rfl, rfl⟩
            by_cases he : m.datatype = dst.datatype
            · rw [he, hdd.2]
              unfold conversion
              rw [if_pos rfl]
              rfl
            · rw [if_neg he, getConverter_ne hdd.1.symm he] at hs
              cases hc : conversion m.datatype ty with
              | some f => rfl
              | none =>
                rw [← hdd.2] at hc
                rw [show getGenericConverter m.definition.datatype dst.definition.datatype = _ from
                  (generic_spec he).1 hc] at hs
                cases hs
      · exact ih st1 st' h m hm ty hty

theorem nothing_loop {st : PointLayout × Converters} : ∀ (ms : List Member),
    (∀ m ∈ ms, supportedAttributes.lookup m.name = none) → forLoop ms st compatibleStep = .ok st := by
  intro ms
  induction ms with
  | nil => intro _; rfl
  | cons m ms ih =>
    intro h
    rw [forLoop_cons, show compatibleStep st m = .ok st by unfold compatibleStep; rw [h m (by simp)]; rfl]
    exact ih fun x hx => h x (by simp [hx])

theorem open_waiting {l : PointLayout} (hl : Solid l) {center : Option (P3 F64)} {w : PntsWriter}
    (hw : openPnts l center = .ok w) : Waiting l center w [] := by
  unfold openPnts at hw
  cases hw0 : fromWriteAndLayout ⟨[], 0⟩ l with
  | error e => rw [hw0] at hw; cases hw
  | ok w0 =>
    have hst : Storable l := by
      unfold fromWriteAndLayout makeCompatibleLayout at hw0
      cases hm : forLoop l.attributes (PointLayout.default, []) compatibleStep with
      | error e => rw [hm] at hw0; cases hw0
      | ok st => exact (storable_iff hl).2 (compatible_conv _ _ _ hm)
    have key : Waiting l none w0 [] := by
      by_cases hne : storedAttributes l = []
      · have hnone : ∀ m ∈ l.attributes, supportedAttributes.lookup m.name = none := by
          intro m hm
          cases hlk : supportedAttributes.lookup m.name with
          | none => rfl
          | some ty =>
            obtain ⟨s, hs, he⟩ := (supported_iff _ _).1 hlk
            have : s ∈ storedAttributes l := List.mem_filter.2 ⟨hs, by rw [he]; exact decide_eq_true ⟨m, hm, rfl⟩⟩
            rw [hne] at this
            cases this
        unfold fromWriteAndLayout makeCompatibleLayout at hw0
        rw [nothing_loop _ hnone] at hw0
        cases hw0
        exact ⟨⟨hl, .inr ⟨hne, rfl, rfl, rfl, rfl, rfl⟩⟩, rfl, rfl, rfl⟩
      · obtain ⟨cl, fns, w1, h1, h2, h3, h4, h5, h6⟩ := new_writer hl hst hne ⟨[], 0⟩
        rw [hw0] at h1
        cases h1
        exact ⟨⟨hl, .inl ⟨cl, fns, h2, h3⟩⟩, h4, h5, h6⟩
    rw [hw0] at hw
    cases center with
    | none => cases hw; exact key
    | some c =>
      cases hw
      obtain ⟨⟨k1, k2⟩, k3, k4, k5⟩ := key
      refine ⟨⟨k1, ?_⟩, k3, k4, rfl⟩
      rcases k2 with ⟨cl, fns, c1, c2⟩ | k2
      · exact .inl ⟨cl, fns, c1, ⟨c2.expected, c2.cacheLayout, c2.converters, c2.cache⟩⟩
      · exact .inr k2

end PntsCalls

open PntsCalls

/-! ## C54 -/

/-- **C54**: whatever points are written, in whatever pieces and with flushes at whatever moments, a `.pnts` file is
    left behind (`IsPnts`): its feature table body starts and ends at multiples of 8, its attributes start at multiples
    of 8 inside the body and do not overlap, and the lengths in the header add up to the length of the file. It
    contains the points written before the first flush, attribute for attribute. The one exception are files of 4 GiB
    or more: the writer panics. `order` is the order in which the `HashMap` of converters is iterated. -/
theorem C54 (J : JsonText) {order : Converters → Converters} (ho : ∀ c, (order c).Perm c) {l : PointLayout}
    (hl : Solid l) {center : Option (P3 F64)} {w : PntsWriter} (hw : openPnts l center = .ok w) (calls : List WriterCall)
    (hb : ∀ b ∈ writesOf calls, b.layout = l) :
    ∃ parts entries, PackedFrom 0 parts ∧ entries.Perm (tableEntries (beforeFlush calls).length center parts) ∧
      (parts.map fun p => (p.semantic, p.data)).Perm
        ((storedAttributes l).map fun s => (s.1, columnOf s.2 ((beforeFlush calls).map (storedPoint l)))) ∧
      (fileSize J entries parts < 2 ^ 32 → ∃ w', runPnts J order w (calls ++ [.flush]) = .ok w' ∧
        IsPnts J w'.writer.data (beforeFlush calls).length center parts ∧
        w'.writer.data.length = fileSize J entries parts) ∧
      (2 ^ 32 ≤ fileSize J entries parts → runPnts J order w (calls ++ [.flush]) = .error .panic) :=
  waiting_run J ho calls hb w [] (open_waiting hl hw)

/-- The layouts a writer can be made for: those whose attributes can be converted to the types of the format. -/
theorem C54_opens {l : PointLayout} (hl : Solid l) (center : Option (P3 F64)) :
    (∃ w, openPnts l center = .ok w) ↔ Storable l := by
  constructor
  · rintro ⟨w, hw⟩
    unfold openPnts at hw
    cases hm : forLoop l.attributes (PointLayout.default, []) compatibleStep with
    | error e =>
      unfold fromWriteAndLayout makeCompatibleLayout at hw
      rw [hm] at hw
      cases hw
    | ok st => exact (storable_iff hl).2 (compatible_conv _ _ _ hm)
  · intro hs
    obtain ⟨cl, fns, h1, _⟩ := makeCompatible_ok hl hs
    unfold openPnts fromWriteAndLayout
    rw [h1]
    cases center with
    | none => exact ⟨_, rfl⟩
    | some c => exact ⟨_, rfl⟩

/-! ## C47 -/

/-- What becomes of **C47** here: after the first flush nothing that is written changes the file any more. -/
theorem C47_pnts_lost (J : JsonText) {order : Converters → Converters} (ho : ∀ c, (order c).Perm c) {l : PointLayout}
    (hl : Solid l) {center : Option (P3 F64)} {w w₁ : PntsWriter} (hw : openPnts l center = .ok w)
    (before after : List WriterCall) (hb : ∀ b ∈ writesOf (before ++ after), b.layout = l)
    (h : runPnts J order w (before ++ [.flush]) = .ok w₁) :
    ∃ w₂, runPnts J order w (before ++ .flush :: after) = .ok w₂ ∧ w₂.writer = w₁.writer := by
  have hsub : ∀ xs ys : List WriterCall, writesOf (xs ++ ys) = writesOf xs ++ writesOf ys := by
    intro xs ys
    unfold writesOf
    rw [List.filterMap_append]
  rw [hsub] at hb
  obtain ⟨⟨ps, h1⟩, h2⟩ := flushed_run J ho before (fun b hb' => hb b (List.mem_append_left _ hb')) w w₁ []
    (open_waiting hl hw) h
  obtain ⟨w₂, e1, e2, _⟩ := done_run J ho after (fun b hb' => hb b (List.mem_append_right _ hb')) w₁ ps h1 h2
  refine ⟨w₂, ?_, e2⟩
  rw [show before ++ .flush :: after = (before ++ [.flush]) ++ after by simp, run_append, h]
  exact e1

/-! ## C39 -/

section
variable {r : PntsReader} {ps : List Point} {center : Option (P3 F64)} {i : Nat}

/-- **C39 in part**, `.pnts` files: `seek_point` goes to the index it is asked for, or to the end. Missing: targets of 2^63
    and more seen from the end or the current point (`C39_pnts_large_panics`). -/
theorem C39_pnts_partial (h : Opened r ps center i) (hn : ps.length < 2 ^ 63) (p : SeekFrom)
    (h0 : 0 ≤ p.wanted ps.length i) (h1 : p.wanted ps.length i < 2 ^ 63 ∨ ∃ k, p = .start k) :
    ∃ r', SeekToPoint.seekPoint r p = .ok (min (p.wanted ps.length i).toNat ps.length, r') ∧ SameTile r r' ∧
      Opened r' ps center (min (p.wanted ps.length i).toNat ps.length) := by
  rcases h1 with h1 | ⟨k, rfl⟩
  · exact seek_opened h hn p h0 h1
  · refine ⟨{ r with currentPointIndex := min k ps.length }, ?_, ⟨rfl, rfl, rfl, rfl, rfl⟩,
      rfl, by simp only [SeekFrom.wanted]; omega, h.count, h.center, h.solid, h.attributes, h.sizes, h.stored⟩
    show r.seekPoint (.start k) = _
    unfold PntsReader.seekPoint
    rw [h.count]
    rfl

/-- Targets before the first point are refused. -/
theorem C39_pnts_before_start (h : Opened r ps center i) (hn : ps.length < 2 ^ 63) (p : SeekFrom) (hv : p.valid)
    (h0 : p.wanted ps.length i < 0) : SeekToPoint.seekPoint r p = .error .err := by
  have hin := h.inside
  show r.seekPoint p = _
  unfold PntsReader.seekPoint
  rw [h.count, h.index]
  cases p with
  | start k => simp only [SeekFrom.wanted] at h0; omega
  | fromEnd k =>
    simp only [SeekFrom.wanted, SeekFrom.valid] at h0 hv
    simp only [toI64, addI64, toU64, if_pos hn, bind, Except.bind]
    rw [if_pos (show -2 ^ 63 ≤ (ps.length : Int) + k ∧ (ps.length : Int) + k < 2 ^ 63 by omega)]
    simp only [if_neg (show ¬ 0 ≤ (ps.length : Int) + k by omega)]
  | current k =>
    simp only [SeekFrom.wanted, SeekFrom.valid] at h0 hv
    simp only [toI64, addI64, toU64, if_pos (show i < 2 ^ 63 by omega), bind, Except.bind]
    rw [if_pos (show -2 ^ 63 ≤ (i : Int) + k ∧ (i : Int) + k < 2 ^ 63 by omega)]
    simp only [if_neg (show ¬ 0 ≤ (i : Int) + k by omega)]

/-- The part of C39 that does not hold: a target of 2^63 or more overflows. -/
theorem C39_pnts_large_panics (h : Opened r ps center i) (hn : ps.length < 2 ^ 63) (p : SeekFrom)
    (hs : ∀ k, p ≠ .start k) (h0 : 2 ^ 63 ≤ p.wanted ps.length i) : SeekToPoint.seekPoint r p = .error .panic := by
  have hin := h.inside
  show r.seekPoint p = _
  unfold PntsReader.seekPoint
  rw [h.count, h.index]
  cases p with
  | start k => exact absurd rfl (hs k)
  | fromEnd k =>
    simp only [SeekFrom.wanted] at h0
    simp only [toI64, addI64, if_pos hn, bind, Except.bind]
    rw [if_neg (show ¬ (-2 ^ 63 ≤ (ps.length : Int) + k ∧ (ps.length : Int) + k < 2 ^ 63) by omega)]
    rfl
  | current k =>
    simp only [SeekFrom.wanted] at h0
    simp only [toI64, addI64, if_pos (show i < 2 ^ 63 by omega), bind, Except.bind]
    rw [if_neg (show ¬ (-2 ^ 63 ≤ (i : Int) + k ∧ (i : Int) + k < 2 ^ 63) by omega)]
    rfl

/-- `point_index` and `point_count` tell the truth and change nothing. -/
theorem C39_pnts_index_and_count (h : Opened r ps center i) (hn : ps.length < 2 ^ 63) :
    pointIndex r = .ok (i, r) ∧ pointCount r = .ok (ps.length, r) := by
  have hin := h.inside
  have key : ∀ (p : SeekFrom) (j : Nat), p.wanted ps.length i = j → j ≤ ps.length → SeekToPoint.seekPoint r p =
      .ok (j, { r with currentPointIndex := j }) := by
    intro p j hp hj
    obtain ⟨r', h1, ⟨e1, e2, e3, e4, e5⟩, h3⟩ := seek_opened h hn p (by omega) (by omega)
    rw [h1, hp]
    have hm : min (Int.toNat (j : Int)) ps.length = j := by omega
    have hi := h3.index
    rw [hp, hm] at hi
    rw [hm]
    obtain ⟨a1, a2, a3, a4, a5, a6⟩ := r'
    dsimp only at e1 e2 e3 e4 e5 hi
    rw [e1, e2, e3, e4, e5, hi]
  have hr : ({ r with currentPointIndex := i } : PntsReader) = r := by
    have := h.index
    subst this
    rfl
  have h1 : pointIndex r = .ok (i, r) := by
    unfold pointIndex
    rw [key (.current 0) i (by simp [SeekFrom.wanted]) hin, hr]
  refine ⟨h1, ?_⟩
  unfold pointCount
  rw [h1]
  show (SeekToPoint.seekPoint r (.fromEnd 0)).bind _ = _
  rw [key (.fromEnd 0) ps.length (by simp [SeekFrom.wanted]) (Nat.le_refl _)]
  have e : SeekToPoint.seekPoint { r with currentPointIndex := ps.length } (.start i) = .ok (i, r) := by
    show Except.ok (min i r.metadata.pointsLength,
      ({ r with currentPointIndex := min i r.metadata.pointsLength } : PntsReader)) = _
    rw [h.count, show min i ps.length = i by omega, hr]
  simp only [bind, Except.bind, e]
  rfl

end

/-! ## C55 -/

section
variable {J : JsonText} {f : F64 → F64}

theorem pnts_open_generic (hJ : Faithful J f) {order : Converters → Converters} (ho : ∀ c, (order c).Perm c)
    {l : PointLayout} (hl : Solid l) (hne : storedAttributes l ≠ []) {center : Option (P3 F64)} {w w' : PntsWriter}
    (hw : openPnts l center = .ok w) (calls : List WriterCall) (hb : ∀ b ∈ writesOf calls, b.layout = l)
    (hrun : runPnts J order w (calls ++ [.flush]) = .ok w') :
    ((∀ c, center = some c → FiniteCenter c) →
      ∃ r, PntsReader.fromRead J w'.writer.data = .ok r ∧
        Opened r ((beforeFlush calls).map (storedPoint l)) (center.map (textCenter f)) 0 ∧ r.mode = .absolute ∧
        r.layout.attributes.map Member.definition = (storedAttributes l).map Prod.snd ∧
        (beforeFlush calls).length < 2 ^ 63) ∧
    (∀ c, center = some c → ¬ FiniteCenter c → PntsReader.fromRead J w'.writer.data = .error .err) := by
  have ht : ∀ p ∈ beforeFlush calls, ∀ d v, p.get d = some v → v.length = d.size := by
    intro p hp d v hv
    have : ∃ b ∈ writesOf calls, p ∈ b.points := by
      clear hrun hb
      induction calls with
      | nil => cases hp
      | cons c calls ih =>
        cases c with
        | write b =>
          rcases List.mem_append.1 hp with hp | hp
          · exact ⟨b, by simp [writesOf], hp⟩
          · obtain ⟨b', h1, h2⟩ := ih hp
            exact ⟨b', by unfold writesOf at h1 ⊢; simp [h1], h2⟩
        | flush => cases hp
    obtain ⟨b, h1, h2⟩ := this
    exact (points_typed b.solid b.shows h2).2 _ _ hv
  obtain ⟨parts, entries, h1, h2, h3, h4, h5⟩ := C54 J ho hl hw calls hb
  have hs : fileSize J entries parts < 2 ^ 32 := by
    by_contra hc
    rw [h5 (by omega)] at hrun
    cases hrun
  obtain ⟨w'', g1, g2, g3⟩ := h4 hs
  rw [g1] at hrun
  cases hrun
  have hlen : ((beforeFlush calls).map (storedPoint l)).length = (beforeFlush calls).length := by simp
  have hh := stored_have (l := l) ht
  constructor
  · intro hc
    obtain ⟨r, r1, r2, r3, r4⟩ := open_file hJ g2 (q := fun s => named l s.2.name) hlen hne hh h3 hc
    refine ⟨r, r1, r2, r3, r4, ?_⟩
    obtain ⟨s, hs'⟩ := List.exists_mem_of_ne_nil _ hne
    obtain ⟨p, hp, he⟩ := List.mem_map.1 (h3.mem_iff.2 (List.mem_map_of_mem hs'))
    have hin := g2.inside p hp
    have hle := g2.lengths
    have hd : p.data = columnOf s.2 ((beforeFlush calls).map (storedPoint l)) := (Prod.mk.inj he).2
    have hcl := columnOf_length (hh.values (List.mem_map_of_mem (f := Prod.snd) hs'))
    rw [← hd, List.length_map] at hcl
    have hpos : 0 < s.2.size := by
      have := (List.mem_filter.1 hs').1
      simp only [semantics, List.mem_cons, List.not_mem_nil, or_false] at this
      rcases this with rfl | rfl | rfl | rfl <;> decide
    have : (beforeFlush calls).length ≤ (beforeFlush calls).length * s.2.size := Nat.le_mul_of_pos_right _ hpos
    omega
  · intro c hc hnf
    subst hc
    exact open_fails hJ g2 (q := fun s => named l s.2.name) hlen hne hh h3 hnf

theorem stored_movable {l rl : PointLayout} (h : rl.attributes.map Member.definition = (storedAttributes l).map Prod.snd) :
    Movable rl := by
  intro m hm hn
  have : m.definition ∈ (storedAttributes l).map Prod.snd := h ▸ List.mem_map_of_mem hm
  obtain ⟨s, hs, he⟩ := List.mem_map.1 this
  have hs := (List.mem_filter.1 hs).1
  have hn : m.definition.name = "Position3D" := hn
  left
  show m.definition.datatype = _
  rw [← he] at hn ⊢
  simp only [semantics, List.mem_cons, List.not_mem_nil, or_false] at hs
  rcases hs with rfl | rfl | rfl | rfl
  · rfl
  · exact absurd (show "ColorRGBA" = "Position3D" from hn) (by decide)
  · exact absurd (show "ColorRGB" = "Position3D" from hn) (by decide)
  · exact absurd (show "Normal" = "Position3D" from hn) (by decide)

/-- **C55 in part**: points written in any number of `write` calls before the (first) flush are read back in the same
    order, attribute for attribute, by any sequence of reads and seeks: the attributes the format knows, converted to
    its types (`storedPoint`). In `Absolute` mode, the default, positions are moved by the center; `f` is what the text
    format makes of floats. Missing: reads of no points (`C55_end_violated`), centers that are not
    finite (`C55_center_violated`), points without any attribute that can be stored (`C55_no_attributes`). -/
theorem C55_partial (hJ : Faithful J f) {order : Converters → Converters} (ho : ∀ c, (order c).Perm c)
    {l : PointLayout} (hl : Solid l) (hne : storedAttributes l ≠ []) {center : Option (P3 F64)}
    (hc : ∀ c, center = some c → FiniteCenter c) {w w' : PntsWriter}
    (hw : openPnts l center = .ok w) (writes : List WriterCall) (hb : ∀ b ∈ writesOf writes, b.layout = l)
    (hrun : runPnts J order w (writes ++ [.flush]) = .ok w') :
    ∃ r, PntsReader.fromRead J w'.writer.data = .ok r ∧ r.mode = .absolute ∧
      r.layout.attributes.map Member.definition = (storedAttributes l).map Prod.snd ∧
      ∀ (mode : PositionsMode) (calls : List ReaderCall), seeksInRange (beforeFlush writes).length 0 calls →
        readsSomething (beforeFlush writes).length 0 calls →
        (∃ bs : List VectorBuffer, runCalls VectorBuffer (r.setMode mode) calls = .ok bs ∧
          List.Forall₂ (fun b part => VectorConsistent b ∧
            ShowsPoints b r.layout (part.map (placed mode (center.map (textCenter f)))))
            bs (partsRead ((beforeFlush writes).map (storedPoint l)) 0 calls)) ∧
        (∃ bs : List HashMapBuffer, runCalls HashMapBuffer (r.setMode mode) calls = .ok bs ∧
          List.Forall₂ (fun b part => HashMapConsistent b ∧
            ShowsPoints b r.layout (part.map (placed mode (center.map (textCenter f)))))
            bs (partsRead ((beforeFlush writes).map (storedPoint l)) 0 calls)) := by
  obtain ⟨r, r1, r2, r3, r4, r5⟩ := (pnts_open_generic hJ ho hl hne hw writes hb hrun).1 hc
  refine ⟨r, r1, r3, r4, ?_⟩
  intro mode calls hs hr
  have ho : Opened (r.setMode mode) ((beforeFlush writes).map (storedPoint l)) (center.map (textCenter f)) 0 :=
    ⟨r2.index, r2.inside, r2.count, r2.center, r2.solid, r2.attributes, r2.sizes, r2.stored⟩
  have hn : ((beforeFlush writes).map (storedPoint l)).length = (beforeFlush writes).length := by simp
  rw [← hn] at hs hr r5
  exact ⟨session_opened (β := VectorBuffer) calls _ _ _ 0 ho (stored_movable r4) r5 hs hr,
    session_opened (β := HashMapBuffer) calls _ _ _ 0 ho (stored_movable r4) r5 hs hr⟩

/-- **C55 violated**: a center that is not finite is written as `null`; the file cannot be opened. -/
theorem C55_center_violated (hJ : Faithful J f) {order : Converters → Converters} (ho : ∀ c, (order c).Perm c)
    {l : PointLayout} (hl : Solid l) (hne : storedAttributes l ≠ []) {c : P3 F64} (hc : ¬ FiniteCenter c)
    {w w' : PntsWriter} (hw : openPnts l (some c) = .ok w) (writes : List WriterCall)
    (hb : ∀ b ∈ writesOf writes, b.layout = l) (hrun : runPnts J order w (writes ++ [.flush]) = .ok w') :
    PntsReader.fromRead J w'.writer.data = .error .err :=
  (pnts_open_generic hJ ho hl hne hw writes hb hrun).2 c rfl hc

end

/-- **C55 violated**: at the end of the file, and for `count` 0, `read` and `read_into` do not deliver 0 points, they
    fail. So reading in chunks until nothing is left ends in an error. -/
theorem C55_end_violated {r : PntsReader} {ps : List Point} {center : Option (P3 F64)} {i : Nat}
    (h : Opened r ps center i) {count : Nat} (hz : count = 0 ∨ i = ps.length) :
    (∀ {β : Type} [BorrowedMutBuffer β] [AsMemoryMut β] (b : β), PointReader.readInto r b count = .error .err) ∧
      readPoints VectorBuffer r count = .error .err ∧ readPoints HashMapBuffer r count = .error .err := by
  have key : ∀ {β : Type} [BorrowedMutBuffer β] [AsMemoryMut β] (b : β), PointReader.readInto r b count = .error .err :=
    fun b => readInto_nothing h b (by omega)
  refine ⟨key, ?_, ?_⟩
  · unfold readPoints
    dsimp only
    rw [key]
    rfl
  · unfold readPoints
    dsimp only
    rw [key]
    rfl

/-! ## C56 -/

theorem convert_zip {source : PointLayout} {ps qs : List Point} {i n : Nat} (hn : i + n ≤ ps.length) (hq : n ≤ qs.length)
    (g : Point → Point) : ((defaultPlan source).convert ps ⟨i, i + n⟩ qs ⟨0, n⟩).map g =
      List.zipWith (fun p q => g ((defaultPlan source).apply p q)) ((ps.drop i).take n) qs ++ (qs.drop n).map g := by
  have hl : (List.zipWith (fun p q => g ((defaultPlan source).apply p q)) ((ps.drop i).take n) qs).length = n := by
    simp; omega
  apply List.ext_getElem?
  intro j
  rw [List.getElem?_map]
  simp only [Plan.convert, List.getElem?_mapIdx]
  by_cases hj : j < n
  · rw [List.getElem?_append_left (by omega), List.getElem?_zipWith, List.getElem?_take, if_pos hj, List.getElem?_drop,
      List.getElem?_eq_getElem (show j < qs.length by omega), List.getElem?_eq_getElem (show i + j < ps.length by omega)]
    simp only [Option.map_some, Nat.sub_zero, List.getElem?_eq_getElem (show i + j < ps.length by omega)]
    rw [if_pos ⟨by omega, hj⟩]
  · rw [List.getElem?_append_right (by omega), hl, List.getElem?_map, List.getElem?_drop,
      show n + (j - n) = j by omega]
    cases qs[j]? with
    | none => rfl
    | some q => simp only [Option.map_some]; rw [if_neg (by omega)]

theorem readInto_generic {β : Type} [OwningBuffer β] [RecordBuffer β] [AsMemoryMut β] {r : PntsReader} {ps : List Point}
    {center : Option (P3 F64)} {i : Nat} (h : Opened r ps center i) {target : PointLayout} (htl : Solid target)
    (hcv : Convertible r.layout target) (hmv : r.mode = .absolute → center ≠ none → Movable target) {b : β}
    (hb : RecordBuffer.Consistent b) {qs : List Point} (hq : ShowsPoints b target qs) {count : Nat}
    (hpos : 0 < min count (ps.length - i)) (hn : min count (ps.length - i) ≤ qs.length) :
    ∃ b' r', PointReader.readInto r b count = .ok (min count (ps.length - i), b', r') ∧ SameTile r r' ∧
      Opened r' ps center (i + min count (ps.length - i)) ∧ RecordBuffer.Consistent b' ∧
      ShowsPoints b' target (List.zipWith (fun p q => placed r.mode center ((defaultPlan r.layout).apply p q))
        ((ps.drop i).take count) qs ++
          (qs.drop (min count (ps.length - i))).map (placed r.mode center)) := by
  obtain ⟨rs, h1, rfl, rfl⟩ := record_shows hb htl hq
  obtain ⟨rs', r', a1, a2, a3, a4, a5⟩ := readInto_records (β := β) h htl hcv hmv h1 hpos (by simpa using hn)
  refine ⟨_, r', a1, a2, a3, RecordBuffer.consistent htl a4, ?_⟩
  have := HoldsRecords.shows (β := β) htl a4
  rw [a5, convert_zip (by omega) hn] at this
  rw [show (ps.drop i).take count = (ps.drop i).take (min count (ps.length - i)) by
    rw [List.take_eq_take_iff]; simp]
  exact this

/-- What becomes of **C56**, interleaved buffers: `read_into` converts the next points into the first places of the buffer
    and moves each of them by the center, once; but in `Absolute` mode it also moves all other points of the buffer. -/
theorem C56_actual_interleaved {r : PntsReader} {ps : List Point} {center : Option (P3 F64)} {i : Nat}
    (h : Opened r ps center i) {target : PointLayout} (htl : Solid target) (hcv : Convertible r.layout target)
    (hmv : r.mode = .absolute → center ≠ none → Movable target) {b : VectorBuffer} (hb : VectorConsistent b)
    {qs : List Point} (hq : ShowsPoints b target qs) {count : Nat} (hpos : 0 < min count (ps.length - i))
    (hn : min count (ps.length - i) ≤ qs.length) :
    ∃ b' r', PointReader.readInto r b count = .ok (min count (ps.length - i), b', r') ∧ SameTile r r' ∧
      Opened r' ps center (i + min count (ps.length - i)) ∧ VectorConsistent b' ∧
      ShowsPoints b' target (List.zipWith (fun p q => placed r.mode center ((defaultPlan r.layout).apply p q))
        ((ps.drop i).take count) qs ++ (qs.drop (min count (ps.length - i))).map (placed r.mode center)) :=
  readInto_generic (β := VectorBuffer) h htl hcv hmv hb hq hpos hn

/-- What becomes of **C56**, columnar buffers. -/
theorem C56_actual_columnar {r : PntsReader} {ps : List Point} {center : Option (P3 F64)} {i : Nat}
    (h : Opened r ps center i) {target : PointLayout} (htl : Solid target) (hcv : Convertible r.layout target)
    (hmv : r.mode = .absolute → center ≠ none → Movable target) {b : HashMapBuffer} (hb : HashMapConsistent b)
    {qs : List Point} (hq : ShowsPoints b target qs) {count : Nat} (hpos : 0 < min count (ps.length - i))
    (hn : min count (ps.length - i) ≤ qs.length) :
    ∃ b' r', PointReader.readInto r b count = .ok (min count (ps.length - i), b', r') ∧ SameTile r r' ∧
      Opened r' ps center (i + min count (ps.length - i)) ∧ HashMapConsistent b' ∧
      ShowsPoints b' target (List.zipWith (fun p q => placed r.mode center ((defaultPlan r.layout).apply p q))
        ((ps.drop i).take count) qs ++ (qs.drop (min count (ps.length - i))).map (placed r.mode center)) :=
  readInto_generic (β := HashMapBuffer) h htl hcv hmv hb hq hpos hn

theorem readOver_whole {source : PointLayout} {place : Point → Point} {ps qs : List Point} {i count : Nat}
    (hq : qs.length = min count (ps.length - i)) :
    List.zipWith (fun p q => place ((defaultPlan source).apply p q)) ((ps.drop i).take count) qs ++
      (qs.drop (min count (ps.length - i))).map place = readOverPnts source place ((ps.drop i).take count) qs := by
  unfold readOverPnts
  rw [show ((ps.drop i).take count).length = min count (ps.length - i) by simp,
    List.drop_of_length_le (l := qs) (by omega)]
  rfl

theorem readOver_relative {source : PointLayout} {ps qs : List Point} {i count : Nat} :
    List.zipWith (fun p q => id ((defaultPlan source).apply p q)) ((ps.drop i).take count) qs ++
      (qs.drop (min count (ps.length - i))).map id = readOverPnts source id ((ps.drop i).take count) qs := by
  unfold readOverPnts
  rw [List.map_id]
  congr 2
  simp

/-- **C56 in part**, interleaved buffers: if the buffer has room for the points read and nothing else, or if positions are
    not moved, `read_into` does what it should: it moves the position of each point it reads by the center, once.
    Missing: larger buffers (`C56_violated`). -/
theorem C56_interleaved_partial {r : PntsReader} {ps : List Point} {center : Option (P3 F64)} {i : Nat}
    (h : Opened r ps center i) {target : PointLayout} (htl : Solid target) (hcv : Convertible r.layout target)
    (hmv : r.mode = .absolute → center ≠ none → Movable target) {b : VectorBuffer} (hb : VectorConsistent b)
    {qs : List Point} (hq : ShowsPoints b target qs) {count : Nat} (hpos : 0 < min count (ps.length - i))
    (hn : min count (ps.length - i) ≤ qs.length)
    (hone : qs.length = min count (ps.length - i) ∨ r.mode = .relativeToCenter ∨ center = none) :
    ∃ b' r', PointReader.readInto r b count = .ok (min count (ps.length - i), b', r') ∧ VectorConsistent b' ∧
      Opened r' ps center (i + min count (ps.length - i)) ∧
      ShowsPoints b' target (readOverPnts r.layout (placed r.mode center) ((ps.drop i).take count) qs) := by
  obtain ⟨b', r', h1, _, h3, h4, h5⟩ := C56_actual_interleaved h htl hcv hmv hb hq hpos hn
  refine ⟨b', r', h1, h4, h3, ?_⟩
  rcases hone with hone | hone
  · rwa [readOver_whole hone] at h5
  · rw [show placed r.mode center = id by
      rcases hone with e | e <;> rw [e] <;> first | rfl | (cases r.mode <;> rfl)] at h5 ⊢
    rwa [readOver_relative] at h5

/-- **C56 in part**, columnar buffers. -/
theorem C56_columnar_partial {r : PntsReader} {ps : List Point} {center : Option (P3 F64)} {i : Nat}
    (h : Opened r ps center i) {target : PointLayout} (htl : Solid target) (hcv : Convertible r.layout target)
    (hmv : r.mode = .absolute → center ≠ none → Movable target) {b : HashMapBuffer} (hb : HashMapConsistent b)
    {qs : List Point} (hq : ShowsPoints b target qs) {count : Nat} (hpos : 0 < min count (ps.length - i))
    (hn : min count (ps.length - i) ≤ qs.length)
    (hone : qs.length = min count (ps.length - i) ∨ r.mode = .relativeToCenter ∨ center = none) :
    ∃ b' r', PointReader.readInto r b count = .ok (min count (ps.length - i), b', r') ∧ HashMapConsistent b' ∧
      Opened r' ps center (i + min count (ps.length - i)) ∧
      ShowsPoints b' target (readOverPnts r.layout (placed r.mode center) ((ps.drop i).take count) qs) := by
  obtain ⟨b', r', h1, _, h3, h4, h5⟩ := C56_actual_columnar h htl hcv hmv hb hq hpos hn
  refine ⟨b', r', h1, h4, h3, ?_⟩
  rcases hone with hone | hone
  · rwa [readOver_whole hone] at h5
  · rw [show placed r.mode center = id by
      rcases hone with e | e <;> rw [e] <;> first | rfl | (cases r.mode <;> rfl)] at h5 ⊢
    rwa [readOver_relative] at h5

/-- Why `Movable` is needed: moving positions of another type than vectors of f32 or f64 fails. -/
theorem C56_types {r : PntsReader} {c : P3 F64} (hc : r.metadata.rtcCenter = some c)
    {b : VectorBuffer} {m : Member} (hm : b.layout.getAttributeByName "Position3D" = some m)
    (h32 : m.datatype ≠ .vec3f32) (h64 : m.datatype ≠ .vec3f64) : r.applyRtcCenter b = .error .err := by
  unfold applyRtcCenter
  rw [hc, show (BorrowedBuffer.layout b).getAttributeByName position3D.name = some m from hm]
  dsimp only
  cases hd : m.datatype <;> first | rfl | exact absurd hd h32 | exact absurd hd h64

/-! ## Examples and counterexamples -/

/-- A layout for positions in a tile. -/
def tileLayout : PointLayout := ⟨[⟨⟨"Position3D", .vec3f32⟩, 0⟩], 12, 1⟩

theorem tile_solid : Solid tileLayout := by decide +kernel

/-- A reader of a file with one point and the center (1, 0, 0). -/
def oneTile : PntsReader :=
  ⟨zeros 12, ⟨1, some ⟨⟨false, 0x3FF0000000000000⟩, ⟨false, 0⟩, ⟨false, 0⟩⟩, none, none, none, none⟩, tileLayout, 0,
    [("Position3D", 0)], .absolute⟩

theorem oneTile_opened : Opened oneTile [zeroPoint tileLayout] oneTile.metadata.rtcCenter 0 where
  index := rfl
  inside := by simp
  count := rfl
  center := rfl
  solid := tile_solid
  attributes := by intro p hp; obtain rfl := List.mem_singleton.1 hp; rfl
  sizes := by intro p hp; obtain rfl := List.mem_singleton.1 hp; decide
  stored := by
    intro m hm
    obtain rfl := List.mem_singleton.1 hm
    exact ⟨0, rfl, by decide⟩

/-- The theorems about `seek_point` apply to this reader. -/
example : (∃ r', SeekToPoint.seekPoint oneTile (.fromEnd 5) = .ok (1, r')) ∧
    SeekToPoint.seekPoint oneTile (.current (-1)) = .error .err ∧
    SeekToPoint.seekPoint oneTile (.fromEnd (2 ^ 63 - 1)) = .error .panic ∧ pointCount oneTile = .ok (1, oneTile) := by
  obtain ⟨r', h, _⟩ := C39_pnts_partial oneTile_opened (by decide) (.fromEnd 5) (by decide) (.inl (by decide))
  exact ⟨⟨r', h⟩, C39_pnts_before_start oneTile_opened (by decide) _ (by simp only [SeekFrom.valid]; omega) (by decide),
    C39_pnts_large_panics oneTile_opened (by decide) _ (by intro k h; cases h) (by decide),
    (C39_pnts_index_and_count oneTile_opened (by decide)).2⟩

/-- Two points at the origin. -/
def twoPoints : VectorBuffer := Interleaved.ofRecords tileLayout [zeros 12, zeros 12]

theorem twoPoints_shows : VectorConsistent twoPoints ∧
    ShowsPoints twoPoints tileLayout ([zeros 12, zeros 12].map (pointOf tileLayout)) := by
  have hall : AllLen tileLayout.size [zeros 12, zeros 12] := by
    intro x hx
    simp only [List.mem_cons, List.not_mem_nil, or_false] at hx
    rcases hx with rfl | rfl <;> rfl
  exact ⟨hall.flatten_length, interleaved_shows_points tile_solid hall⟩

/-- **C56 violated**: a file has one point, the buffer two. The second one is not read; it is moved all the same. -/
theorem C56_violated : ∃ (r : PntsReader) (ps : List Point) (center : Option (P3 F64)) (b b' : VectorBuffer)
    (qs : List Point) (r' : PntsReader), Opened r ps center 0 ∧ r.mode = .absolute ∧ VectorConsistent b ∧
    ShowsPoints b r.layout qs ∧ PointReader.readInto r b 2 = .ok (1, b', r') ∧
    ¬ ShowsPoints b' r.layout (readOverPnts r.layout (placed r.mode center) (ps.take 2) qs) := by
  obtain ⟨hb, hq⟩ := twoPoints_shows
  obtain ⟨b', r', h1, _, _, h4, h5⟩ := C56_actual_interleaved oneTile_opened tile_solid (convertible_self tile_solid)
    (fun _ _ => by intro m hm _; obtain rfl := List.mem_singleton.1 hm; exact .inl rfl) hb hq (count := 2)
    (by decide) (by decide)
  refine ⟨oneTile, _, _, twoPoints, b', _, r', oneTile_opened, rfl, hb, hq, h1, ?_⟩
  intro h
  exact absurd (showsPoints_unique h h5) (by decide +kernel)

/-- A text format without any text. -/
def noText : JsonText := ⟨fun _ => [], fun _ => none⟩

/-- `k` points at the origin. -/
def origins (k : Nat) : Batch := copies tileLayout tile_solid (zeros 12) rfl k

/-- **C47 violated**: without the flush in between the file is longer, it has the second point. -/
theorem C47_pnts_violated : ∃ (w w₁ w₂ : PntsWriter) (b : Batch), openPnts tileLayout none = .ok w ∧ b.layout = tileLayout ∧
    runPnts noText id w [.write b, .write b, .flush] = .ok w₁ ∧
    runPnts noText id w [.write b, .flush, .write b, .flush] = .ok w₂ ∧
    w₁.writer.data.length = 56 ∧ w₂.writer.data.length = 48 := by
  have h : (match openPnts tileLayout none with
      | .error _ => none
      | .ok w => match runPnts noText id w [.write (origins 1), .write (origins 1), .flush],
          runPnts noText id w [.write (origins 1), .flush, .write (origins 1), .flush] with
        | .ok w₁, .ok w₂ => some (w₁.writer.data.length, w₂.writer.data.length)
        | _, _ => none) = some (56, 48) := by decide +kernel
  cases hw : openPnts tileLayout none with
  | error e => rw [hw] at h; cases h
  | ok w =>
    rw [hw] at h
    dsimp only at h
    cases h1 : runPnts noText id w [.write (origins 1), .write (origins 1), .flush] with
    | error e => rw [h1] at h; cases h
    | ok w₁ =>
      cases h2 : runPnts noText id w [.write (origins 1), .flush, .write (origins 1), .flush] with
      | error e => rw [h1, h2] at h; cases h
      | ok w₂ =>
        rw [h1, h2] at h
        have h := Prod.mk.inj (Option.some.inj h)
        exact ⟨w, w₁, w₂, origins 1, rfl, rfl, h1, h2, h.1, h.2⟩

/-- **C54 needs a stream that starts at a multiple of 8**: the padding after the feature table is computed from the
    position in the stream. Here the stream has one byte already; what is written is longer than its header says. -/
theorem C54_position_violated : ∃ w w', PntsWriter.fromWriteAndLayout ⟨[0#8], 1⟩ tileLayout = .ok w ∧
    w.flush noText = .ok w' ∧ field (w'.writer.data.drop 1) 2 = 32 ∧ (w'.writer.data.drop 1).length = 39 := by
  have h : (match PntsWriter.fromWriteAndLayout ⟨[0#8], 1⟩ tileLayout with
      | .error _ => none
      | .ok w => match w.flush noText with
        | .error _ => none
        | .ok w' => some (field (w'.writer.data.drop 1) 2, (w'.writer.data.drop 1).length)) = some (32, 39) := by
    decide +kernel
  cases hw : PntsWriter.fromWriteAndLayout ⟨[0#8], 1⟩ tileLayout with
  | error e => rw [hw] at h; cases h
  | ok w =>
    rw [hw] at h
    dsimp only at h
    cases h1 : w.flush noText with
    | error e => rw [h1] at h; cases h
    | ok w' =>
      rw [h1] at h
      have h := Prod.mk.inj (Option.some.inj h)
      exact ⟨w, w', rfl, h1, h.1, h.2⟩

/-! ## The theorems apply -/

/-- Positions as vectors of f64, intensities, colors as vectors of u16. -/
def surveyLayout : PointLayout :=
  ⟨[⟨⟨"Position3D", .vec3f64⟩, 0⟩, ⟨⟨"Intensity", .u16⟩, 24⟩, ⟨⟨"ColorRGB", .vec3u16⟩, 26⟩], 32, 8⟩

theorem survey_solid : Solid surveyLayout := by decide +kernel

/-- `k` points of this layout. -/
def survey (k : Nat) : Batch := copies surveyLayout survey_solid (List.replicate 32 7#8) (by simp; rfl) k

/-- What an entry takes in the format of `Codec`. -/
def entryLength (e : String × Json) : Nat := 1 + (Codec.serChars e.1.toList).length + (Codec.ser e.2).length

theorem entries_length (es : List (String × Json)) : (Codec.serEntries es).length = 1 + (es.map entryLength).sum := by
  induction es with
  | nil => rfl
  | cons e es ih =>
    obtain ⟨k, v⟩ := e
    simp only [Codec.serEntries, List.length_cons, List.length_append, ih, List.map_cons, List.sum_cons, entryLength]
    omega

theorem chars_length (cs : List Char) : (Codec.serChars cs).length = 1 + 5 * cs.length := by
  induction cs with
  | nil => rfl
  | cons c cs ih =>
    simp only [Codec.serChars, List.length_cons, List.cons_append, List.length_append, natLE_length, ih]
    omega

theorem reference_length (k : String) (o : Nat) :
    entryLength (k, .object [("byteOffset", .int o)]) = 5 * k.toList.length + 66 := by
  have : ("byteOffset".toList).length = 10 := by decide
  simp only [entryLength, Codec.ser, Codec.serEntries, List.length_cons, List.length_append, List.length_nil, natLE_length,
    chars_length, this]
  omega

/-- Two batches, 7007 points, a center: everything the theorems ask for. -/
example : ∃ (center : P3 F64) (w w' : PntsWriter) (calls : List WriterCall), Faithful Codec.codec id ∧ FiniteCenter center ∧
    Storable surveyLayout ∧ storedAttributes surveyLayout ≠ [] ∧ openPnts surveyLayout (some center) = .ok w ∧
    (∀ b ∈ writesOf calls, b.layout = surveyLayout) ∧ (beforeFlush calls).length = 7007 ∧
    runPnts Codec.codec List.reverse w (calls ++ [.flush]) = .ok w' := by
  obtain ⟨k, hk⟩ : ∃ k, k = 7000 := ⟨_, rfl⟩
  have hst : storedAttributes surveyLayout = [("POSITION", ⟨"Position3D", .vec3f32⟩), ("RGB", ⟨"ColorRGB", .vec3u8⟩)] := by
    decide +kernel
  have hs : Storable surveyLayout := by
    unfold Storable
    rw [hst]
    decide +kernel
  let center : P3 F64 := ⟨⟨false, 0x3FF0000000000000⟩, ⟨true, 0x4000000000000000⟩, ⟨false, 0⟩⟩
  obtain ⟨w, hw⟩ := (C54_opens survey_solid (some center)).2 hs
  let calls : List WriterCall := [.write (survey k), .write (survey 7)]
  have hb : ∀ b ∈ writesOf calls, b.layout = surveyLayout := by
    intro b hb
    simp only [calls, writesOf, List.filterMap_cons, List.filterMap_nil, List.mem_cons, List.not_mem_nil, or_false] at hb
    rcases hb with rfl | rfl <;> rfl
  have hlen : (beforeFlush calls).length = 7007 := by
    show (((survey k).points ++ ((survey 7).points ++ []))).length = _
    show (((List.replicate k _).map _) ++ (((List.replicate 7 _).map _) ++ [])).length = _
    simp only [List.length_append, List.length_map, List.length_replicate, List.length_nil]
    omega
  obtain ⟨parts, entries, h1, h2, h3, h4, h5⟩ := C54 Codec.codec (order := List.reverse) (fun c => List.reverse_perm c)
    survey_solid hw calls hb
  have hsize : fileSize Codec.codec entries parts < 2 ^ 32 := by
    have ht : ∀ p ∈ beforeFlush calls, ∀ d v, p.get d = some v → v.length = d.size := by
      intro p hp d v hv
      have : p ∈ (survey k).points ∨ p ∈ (survey 7).points := by
        have hp : p ∈ (survey k).points ++ ((survey 7).points ++ []) := hp
        simpa using hp
      rcases this with hp | hp
      · exact (points_typed survey_solid (survey k).shows hp).2 _ _ hv
      · exact (points_typed survey_solid (survey 7).shows hp).2 _ _ hv
    have hcol : ∀ s ∈ storedAttributes surveyLayout,
        (columnOf s.2 ((beforeFlush calls).map (storedPoint surveyLayout))).length = 7007 * s.2.size := by
      intro s hs
      rw [columnOf_length ((stored_have ht).values (List.mem_map_of_mem (f := Prod.snd) hs)), List.length_map, hlen]
    have htext : (entries.map entryLength).sum ≤ 500 := by
      rw [(h2.map entryLength).sum_eq]
      have e1 : ((parts.map fun p => (p.semantic, Json.object [("byteOffset", .int p.offset)])).map entryLength) =
          (parts.map fun p => (p.semantic, p.data)).map fun x => 5 * x.1.toList.length + 66 := by
        rw [List.map_map, List.map_map]
        apply List.map_congr_left
        intro p _
        exact reference_length _ _
      unfold tableEntries
      rw [List.map_append, List.sum_append, e1, (h3.map _).sum_eq, hst, List.map_map]
      have e2 : ((("POINTS_LENGTH", Json.int (beforeFlush calls).length) :: centerEntry (some center)).map
          entryLength).sum ≤ 300 := by
        rw [hlen]
        decide +kernel
      refine Nat.le_trans (Nat.add_le_add_right e2 _) ?_
      show 300 + (5 * "POSITION".toList.length + 66 + (5 * "RGB".toList.length + 66 + 0)) ≤ 500
      decide
    have hdata : (parts.map fun p => up8 p.data.length).sum ≤ 7007 * 12 + 7007 * 3 + 16 := by
      have e1 : (parts.map fun p => up8 p.data.length) =
          (parts.map fun p => (p.semantic, p.data)).map fun x => up8 x.2.length := by rw [List.map_map]; rfl
      rw [e1, (h3.map _).sum_eq, List.map_map]
      rw [show ((storedAttributes surveyLayout).map ((fun x : String × Bytes => up8 x.2.length) ∘
          fun s => (s.1, columnOf s.2 ((beforeFlush calls).map (storedPoint surveyLayout))))) =
          (storedAttributes surveyLayout).map fun s => up8 (7007 * s.2.size) from
        List.map_congr_left fun s hs => congrArg up8 (hcol s hs), hst]
      decide +kernel
    have e2 : (Codec.codec.toText (.object entries)).length = 2 + (entries.map entryLength).sum := by
      show (Codec.ser (.object entries)).length = _
      simp only [Codec.ser, List.length_cons, entries_length]
      omega
    have e3 : (Codec.codec.toText (.object [])).length = 2 := rfl
    unfold fileSize
    rw [e2, e3]
    have u1 := up8_spec (28 + (2 + (entries.map entryLength).sum))
    have u2 := up8_spec (up8 (28 + (2 + (entries.map entryLength).sum)) +
      (parts.map fun p => up8 p.data.length).sum + 2)
    omega
  obtain ⟨w', hw', _⟩ := h4 hsize
  exact ⟨center, w, w', calls, Codec.codec_faithful, by decide, hs, by rw [hst]; simp, hw, hb, hlen, hw'⟩

end Pasture.Props
