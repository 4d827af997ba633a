import Verif.Lemmas.LasWriterState

/-!
# How many bytes a LAS writer writes, whatever the buffers and whatever the header says about extra bytes
-/

namespace Pasture.Las

open BorrowedBuffer Spec

/-! ## One record -/

theorem put_length {t b : Bytes} (h : b.length ≤ t.length) : (put t 0 b).length = t.length := by
  unfold put
  simp
  omega

theorem run_length {c : Converter} {s t r : Bytes} (h : c.run s t = .ok r) : r.length = t.length := by
  unfold Converter.run at h
  cases c with
  | unit =>
    dsimp only at h
    unfold copyFromSlice at h
    split at h
    · cases h; omega
    · cases h
  | scalar p q =>
    dsimp only at h
    split at h
    · rename_i hc
      cases h
      exact put_length (by rw [writeNum_length]; exact hc.2)
    · cases h
  | vec3 p q =>
    dsimp only at h
    split at h
    · rename_i hc
      cases h
      exact put_length (by simp only [List.length_append, writeNum_length]; omega)
    · cases h

/-- Values for all attributes that are written, each of the size of its type. -/
def Complete (f : Format) (v : LasValues) : Prop := v.map (·.1) = writtenAttributes f ∧ ∀ a ∈ v, a.2.length = a.1.size

theorem written_names (f : Format) : ((writtenAttributes f).map AttrDef.name).Nodup := by
  obtain ⟨g, c, e, w, r, x, z⟩ := f
  have key : ∀ g c e w r : Bool, ((writtenAttributes ⟨g, c, e, w, r, 0, false⟩).map AttrDef.name).Nodup := by
    decide +kernel
  exact key g c e w r

theorem lookup_of_nodup : ∀ {v : LasValues} {a : AttrDef × Bytes}, (v.map fun a => a.1.name).Nodup → a ∈ v →
    v.lookup a.1 = some a.2 ∧ v.find? (fun b => b.1.name = a.1.name) = some a
  | b :: v, a, hn, h => by
    rw [List.map_cons, List.nodup_cons] at hn
    rw [List.lookup_cons]
    rcases List.mem_cons.1 h with rfl | h
    · exact ⟨by simp, by simp⟩
    · have hne : b.1.name ≠ a.1.name := fun e => hn.1 (List.mem_map.2 ⟨a, h, e.symm⟩)
      obtain ⟨h1, h2⟩ := lookup_of_nodup hn.2 h
      rw [beq_eq_false_iff_ne.2 (fun e => hne (congrArg AttrDef.name e).symm), List.find?_cons_of_neg (by simp [hne])]
      exact ⟨h1, h2⟩

theorem complete_reads {f : Format} {v : LasValues} (h : Complete f v) : Reads f v v ∧ Sized v := by
  refine ⟨?_, h.2⟩
  intro d hd
  have ht := (written_covered f d hd).1
  rw [← h.1] at hd
  obtain ⟨a, ha, rfl⟩ := List.mem_map.1 hd
  have hn : (v.map fun a => a.1.name).Nodup := by
    have := written_names f
    rw [← h.1, List.map_map] at this
    exact this
  obtain ⟨h1, h2⟩ := lookup_of_nodup hn ha
  refine ⟨a.2, h1, ?_⟩
  unfold lasValue
  rw [ht, h2]
  show (conversion a.1.datatype a.1.datatype).map _ = _
  rw [conversion_same']
  rfl

theorem record_length {n : Nat} {f : Format} (hf : Format.new n = .ok f) {t : Transforms} {v : LasValues}
    (h : Complete f v) {rec : Bytes} (hr : lasRecord f t v = .ok rec) : rec.length = lasRecordLength n := by
  obtain ⟨h1, h2⟩ := complete_reads h
  rw [lasRecord_eq hf t h1] at hr
  cases hs : storedRecord n t v with
  | none => rw [hs] at hr; cases hr
  | some r =>
    rw [hs] at hr
    cases hr
    exact storedRecord_length (itemsOf_eq hf).2 h2 hs

/-! ## The values of a point -/

theorem ok_of_bind {α γ : Type} {x : Out α} {g : α → Out γ} {c : γ} (h : x.bind g = .ok c) :
    ∃ a, x = .ok a ∧ g a = .ok c := by
  cases x with
  | error e => cases h
  | ok a => exact ⟨a, rfl, h⟩

theorem readExact_length {k : Nat} {c b c' : Bytes} (h : readExact k c = .ok (b, c')) : b.length = k := by
  unfold readExact at h
  split at h
  · cases h; simp; omega
  · cases h

theorem readValues_complete : ∀ {ds : List AttrDef} {c c' : Bytes} {v : LasValues}, readValues ds c = .ok (v, c') →
    v.map (·.1) = ds ∧ ∀ a ∈ v, a.2.length = a.1.size
  | [], c, c', v, h => by cases h; exact ⟨rfl, by simp⟩
  | d :: ds, c, c', v, h => by
    change (readExact d.size c).bind _ = _ at h
    obtain ⟨⟨b, c1⟩, h1, h⟩ := ok_of_bind h
    change (readValues ds c1).bind _ = _ at h
    obtain ⟨⟨vs, c2⟩, h2, h⟩ := ok_of_bind h
    cases h
    obtain ⟨h3, h4⟩ := readValues_complete h2
    refine ⟨by rw [List.map_cons, h3], List.forall_mem_cons.2 ⟨readExact_length h1, h4⟩⟩

theorem attributeReader_length {l : PointLayout} {d : AttrDef} {rd : ReaderFn} (h : attributeReader l d = .ok rd)
    {i : Nat} {chunk b : Bytes} (hb : rd i chunk = .ok b) : b.length = d.size := by
  unfold attributeReader at h
  cases hm : l.getAttributeByName d.name with
  | none => rw [hm] at h; cases h; cases hb; simp [zeros]
  | some m =>
    rw [hm] at h
    dsimp only at h
    split at h
    · cases h
      obtain ⟨⟨v, c⟩, h1, h2⟩ := ok_of_bind hb
      cases h2
      exact readExact_length h1
    · obtain ⟨o, _, h⟩ := ok_of_bind h
      obtain ⟨conv, _, h⟩ := ok_of_bind h
      cases h
      obtain ⟨s, _, h2⟩ := ok_of_bind hb
      rw [run_length h2]
      simp [zeros]

theorem readers_complete {l : PointLayout} : ∀ {ds : List AttrDef} {readers : List (AttrDef × ReaderFn)},
    (ds.mapM fun d => do
      let r ← attributeReader l d
      pure (d, r)) = .ok readers → ∀ {i : Nat} {chunk : Bytes} {v : LasValues}, runReaders readers i chunk = .ok v →
      v.map (·.1) = ds ∧ ∀ a ∈ v, a.2.length = a.1.size
  | [], readers, h, i, chunk, v, hv => by cases h; cases hv; exact ⟨rfl, by simp⟩
  | d :: ds, readers, h, i, chunk, v, hv => by
    rw [List.mapM_cons] at h
    obtain ⟨x, h1, h⟩ := ok_of_bind h
    obtain ⟨rd, h3, h1⟩ := ok_of_bind h1
    cases h1
    obtain ⟨rs, h2, h⟩ := ok_of_bind h
    cases h
    unfold runReaders at hv
    rw [List.mapM_cons] at hv
    obtain ⟨y, g1, hv⟩ := ok_of_bind hv
    obtain ⟨b, g3, g1⟩ := ok_of_bind g1
    cases g1
    obtain ⟨vs, g2, hv⟩ := ok_of_bind hv
    cases hv
    obtain ⟨e1, e2⟩ := readers_complete h2 g2
    exact ⟨by rw [List.map_cons, e1], List.forall_mem_cons.2 ⟨attributeReader_length h3 g3, e2⟩⟩

/-! ## The loops -/

/-- Headers that differ at most in bounds and return counts. -/
def SameHead (h h' : LasHeader) : Prop :=
  h'.format = h.format ∧ h'.recordLength = h.recordLength ∧ h'.transforms = h.transforms ∧ h'.count = h.count

theorem SameHead.refl (h : LasHeader) : SameHead h h := ⟨rfl, rfl, rfl, rfl⟩

theorem SameHead.trans {a b c : LasHeader} (h1 : SameHead a b) (h2 : SameHead b c) : SameHead a c :=
  ⟨h2.1.trans h1.1, h2.2.1.trans h1.2.1, h2.2.2.1.trans h1.2.2.1, h2.2.2.2.trans h1.2.2.2⟩

/-- One point adds `L` bytes. -/
def Adds (L : Nat) (point : Nat → PointState → Out PointState) : Prop :=
  ∀ i st st', point i st = .ok st' → ∃ rec, rec.length = L ∧ st'.out = st.out.write rec ∧ SameHead st.header st'.header

theorem default_adds {n : Nat} {f : Format} (hf : Format.new n = .ok f) :
    Adds (lasRecordLength n) fun _ => writeDefaultPoint f := by
  intro i st st' h
  unfold writeDefaultPoint at h
  obtain ⟨⟨v, c⟩, h1, h⟩ := ok_of_bind h
  obtain ⟨rec, h2, h⟩ := ok_of_bind h
  obtain ⟨p, _, h⟩ := ok_of_bind h
  obtain ⟨r, _, h⟩ := ok_of_bind h
  cases h
  exact ⟨rec, record_length hf (readValues_complete h1) h2, rfl, rfl, rfl, rfl, rfl⟩

theorem custom_adds {n : Nat} {f : Format} (hf : Format.new n = .ok f) {l : PointLayout}
    {readers : List (AttrDef × ReaderFn)} (hr : attributeReaders l f = .ok readers) :
    Adds (lasRecordLength n) (writeCustomPoint f readers) := by
  intro i st st' h
  unfold writeCustomPoint at h
  obtain ⟨v, h1, h⟩ := ok_of_bind h
  obtain ⟨rec, h2, h⟩ := ok_of_bind h
  obtain ⟨p, _, h⟩ := ok_of_bind h
  cases h
  exact ⟨rec, record_length hf (readers_complete hr h1) h2, rfl, rfl, rfl, rfl, rfl⟩

theorem points_add {L : Nat} {point : Nat → PointState → Out PointState} (hp : Adds L point) :
    ∀ (xs : List Nat) (st st' : PointState), st.out.pos ≤ st.out.data.length →
      forLoop xs st (fun st i => point i st) = .ok st' →
      ∃ body, body.length = xs.length * L ∧ st'.out = st.out.write body ∧ SameHead st.header st'.header
  | [], st, st', hin, h => by
    cases h
    exact ⟨[], by simp, (write_nil hin).symm, SameHead.refl _⟩
  | x :: xs, st, st', hin, h => by
    obtain ⟨s1, h1, h2⟩ := forLoop_cons_ok.1 h
    obtain ⟨rec, e1, e2, e3⟩ := hp x st s1 h1
    obtain ⟨body, e4, e5, e6⟩ := points_add hp xs s1 st' (by rw [e2]; exact write_inside hin _) h2
    refine ⟨rec ++ body, ?_, ?_, e3.trans e6⟩
    · rw [List.length_append, e1, e4, List.length_cons, Nat.succ_mul]; omega
    · rw [e5, e2, write_write hin]

theorem chunks_add {β : Type} [BorrowedBuffer β] (b : β) (size : Nat) {L : Nat} {point : Nat → PointState → Out PointState}
    (hp : Adds L point) (s s' : Stream) (hs : s.pos ≤ s.data.length) (header header' : LasHeader)
    (h : writeChunks b size RawLasWriter.sink point s header = .ok (s', header')) :
    ∃ body, body.length = len b * L ∧ s' = s.write body ∧ header'.format = header.format ∧
      header'.recordLength = header.recordLength ∧ header'.count = header.count + len b := by
  unfold writeChunks at h
  obtain ⟨st, h1, h⟩ := ok_of_bind h
  obtain ⟨hd, h2, h⟩ := ok_of_bind h
  cases h
  have key : ∀ m, ∀ st, forLoop (List.range m) ⟨s, header, ReturnCounts.empty, zeros (chunkPoints * size)⟩
      (writeChunk b size RawLasWriter.sink point) = .ok st →
      ∃ body, body.length = min (m * chunkPoints) (len b) * L ∧ st.out = s.write body ∧ SameHead header st.header := by
    intro m
    induction m with
    | zero =>
      intro st h
      cases h
      exact ⟨[], by simp, (write_nil hs).symm, SameHead.refl _⟩
    | succ m ih =>
      intro st h
      rw [List.range_succ, forLoop_append] at h
      obtain ⟨s1, h1, h⟩ := ok_of_bind h
      obtain ⟨s2, h2, h⟩ := forLoop_cons_ok.1 h
      cases h
      obtain ⟨body, e1, e2, e3⟩ := ih s1 h1
      unfold writeChunk at h2
      obtain ⟨x1, _, h2⟩ := ok_of_bind h2
      obtain ⟨x2, _, h2⟩ := ok_of_bind h2
      obtain ⟨ps, h3, h2⟩ := ok_of_bind h2
      cases h2
      obtain ⟨body', e4, e5, e6⟩ := points_add hp _ _ _ (by
        show s1.out.pos ≤ s1.out.data.length
        rw [e2]; exact write_inside hs _) h3
      refine ⟨body ++ body', ?_, ?_, e3.trans e6⟩
      · rw [List.length_append, e1, e4, List.length_range, ← Nat.add_mul, Nat.succ_mul]
        congr 1
        omega
      · show ps.out = _
        rw [e5]
        show s1.out.write body' = _
        rw [e2, write_write hs]
  obtain ⟨body, e1, e2, e3, e4, e5, e6⟩ := key _ _ h1
  have hcount : st.header.updateCounts (len b) st.counts = .ok header' → header'.format = st.header.format ∧
      header'.recordLength = st.header.recordLength ∧ header'.count = st.header.count + len b := by
    intro hu
    unfold LasHeader.updateCounts at hu
    dsimp only at hu
    refine forLoop_inv (P := fun _ (h : LasHeader) => h.format = st.header.format ∧
      h.recordLength = st.header.recordLength ∧ h.count = st.header.count + len b) ?_ st.counts []
      { st.header with count := st.header.count + len b } _ ⟨rfl, rfl, rfl⟩ hu
    rintro pre ⟨k, n⟩ a a' ha hstep
    split at hstep
    · cases hstep; exact ha
    · cases hstep
  obtain ⟨c1, c2, c3⟩ := hcount h2
  refine ⟨body, ?_, e2, c1.trans e3, c2.trans e4, by rw [c3, e6]⟩
  rw [e1]
  congr 1
  have := chunk_last (n := len b) chunkPoints_pos
  rw [← Nat.add_sub_assoc chunkPoints_pos]
  exact Nat.min_eq_right this

/-! ## The writer -/

/-- The state of a LAS writer whose calls succeeded: how long everything is. -/
structure Lengths (encode : LasHeader → Bytes) (H : Nat) (vlrs evlrs : Bytes) (n : Nat) (format recordLength points : Nat)
    (w : RawLasWriter) : Prop where
  evlrs : w.evlrs = evlrs
  format : w.header.format = format
  recordLength : w.header.recordLength = recordLength
  count : w.header.count = points
  file : ∃ body, body.length = points * lasRecordLength n ∧ LasFile encode H vlrs [body] w

theorem lasFile_write {encode : LasHeader → Bytes} {H : Nat} {vlrs : Bytes} {body : Bytes} {w : RawLasWriter}
    (i : LasFile encode H vlrs [body] w) (b : Bytes) (h' : LasHeader) :
    LasFile encode H vlrs [body ++ b] { w with writer := w.writer.write b, header := h', requiresFlush := true } ∧
      w.writer.pos ≤ w.writer.data.length := by
  obtain ⟨hdr, tail, f1, f2, f3, f4, _⟩ := i.bytes
  rw [List.flatten_singleton] at f2 f3
  constructor
  · have hws : w.writer.write b = ⟨hdr ++ vlrs ++ (body ++ b) ++ tail.drop b.length, (hdr ++ vlrs ++ (body ++ b)).length⟩ := by
      have e : w.writer = ⟨(hdr ++ vlrs ++ body) ++ tail, (hdr ++ vlrs ++ body).length⟩ := by
        rw [← f2, ← f3]
      rw [e, write_at_end]
      simp only [List.append_assoc, List.length_append, Stream.mk.injEq, true_and]
      omega
    rw [hws]
    refine ⟨hdr, _, f1, by rw [List.flatten_singleton], by rw [List.flatten_singleton], ?_, by intro e; cases e⟩
    show _ ≤ w.evlrs.length
    rw [List.length_drop]
    omega
  · rw [f2, f3]
    simp only [List.length_append]
    omega

theorem Lengths.write {encode : LasHeader → Bytes} {H : Nat} {vlrs evlrs : Bytes} {n : Nat} {f : Format}
    (hf : Format.new n = .ok f) {format recordLength points : Nat} (hn : format % 64 = n) {w w' : RawLasWriter}
    (i : Lengths encode H vlrs evlrs n format recordLength points w) {β : Type} [BorrowedBuffer β] (b : β)
    (h : w.write b = .ok w') : Lengths encode H vlrs evlrs n format recordLength (points + len b) w' := by
  obtain ⟨body, hb, hfile⟩ := i.file
  have hpos := (lasFile_write hfile [] w.header).2
  have hfm : Format.new (w.header.format % 64) = .ok f := by rw [i.format, hn]; exact hf
  have hsame : len b = 0 → Lengths encode H vlrs evlrs n format recordLength (points + len b) w := by
    intro h0
    rw [h0]
    exact i
  have hgrow : ∀ {size : Nat} {point : Nat → PointState → Out PointState}, Adds (lasRecordLength n) point →
      ∀ s' header', writeChunks b size RawLasWriter.sink point w.writer w.header = .ok (s', header') →
      Lengths encode H vlrs evlrs n format recordLength (points + len b)
        { w with writer := s', header := header', requiresFlush := true } := by
    intro size point hp s' header' hw
    obtain ⟨body', e1, e2, e3, e4, e5⟩ := chunks_add b size hp _ _ hpos _ _ hw
    refine ⟨i.evlrs, e3.trans i.format, e4.trans i.recordLength, by show header'.count = _; rw [e5, i.count], ?_⟩
    refine ⟨body ++ body', by rw [List.length_append, hb, e1, Nat.add_mul], ?_⟩
    rw [e2]
    exact (lasFile_write hfile body' header').1
  unfold RawLasWriter.write at h
  split at h
  · unfold RawLasWriter.writeDefault at h
    split at h
    · rename_i h0
      cases h
      exact hsame h0
    · rw [hfm] at h
      change (writeChunks b _ _ _ w.writer w.header).bind _ = _ at h
      obtain ⟨⟨s', header'⟩, h1, h⟩ := ok_of_bind h
      cases h
      exact hgrow (default_adds hf) _ _ h1
  · unfold RawLasWriter.writeCustom at h
    split at h
    · rename_i h0
      cases h
      exact hsame h0
    · rw [hfm] at h
      change (attributeReaders _ _).bind _ = _ at h
      obtain ⟨readers, h0, h⟩ := ok_of_bind h
      obtain ⟨⟨s', header'⟩, h1, h⟩ := ok_of_bind h
      cases h
      exact hgrow (custom_adds hf h0) _ _ h1

end Pasture.Las
