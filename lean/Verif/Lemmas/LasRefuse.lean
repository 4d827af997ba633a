import Verif.Lemmas.LasWriterState

/-!
# LAS and LAZ writers panic when they get a point that cannot be stored
-/

namespace Pasture.Las

open BorrowedBuffer Spec

/-- A loop that goes well until a step panics. -/
theorem forLoop_range_refuse {σ : Type} {f : σ → Nat → Out σ} {P : Nat → σ → Prop} {good : Nat → Prop} :
    ∀ (k i : Nat) (s : σ), P i s →
    (∀ j s, i ≤ j → j < i + k → good j → P j s → ∃ s', f s j = .ok s' ∧ P (j + 1) s') →
    (∀ j s, i ≤ j → j < i + k → ¬ good j → P j s → f s j = panicked) →
    (∃ j, i ≤ j ∧ j < i + k ∧ ¬ good j) → forLoop (List.range' i k) s f = panicked := by
  intro k
  induction k with
  | zero => rintro i s _ _ _ ⟨j, h1, h2, _⟩; omega
  | succ k ih =>
    rintro i s h0 hstep hfail ⟨j, h1, h2, h3⟩
    rw [List.range'_succ, forLoop_cons]
    by_cases hg : good i
    · obtain ⟨s', e1, e2⟩ := hstep i s (Nat.le_refl _) (by omega) hg h0
      rw [e1]
      have hj : j ≠ i := fun e => h3 (e ▸ hg)
      exact ih (i + 1) s' e2 (fun j s a b => hstep j s (by omega) (by omega)) (fun j s a b => hfail j s (by omega) (by omega))
        ⟨j, by omega, by omega, h3⟩
    · rw [hfail i s (Nat.le_refl _) (by omega) hg h0]
      rfl

/-- Not all records exist. -/
theorem mapM_none_getElem {α γ : Type} {f : α → Option γ} : ∀ {xs : List α}, xs.mapM f = none →
    ∃ (i : Nat) (x : α), xs[i]? = some x ∧ f x = none
  | [], h => by cases h
  | a :: xs, h => by
    cases ha : f a with
    | none => exact ⟨0, a, rfl, ha⟩
    | some b =>
      cases hxs : xs.mapM f with
      | none =>
        obtain ⟨i, x, h1, h2⟩ := mapM_none_getElem hxs
        exact ⟨i + 1, x, h1, h2⟩
      | some bs =>
        rw [List.mapM_cons, ha, hxs] at h
        cases h

theorem mapM_none_mem {α γ : Type} {f : α → Option γ} {xs : List α} {x : α} (hx : x ∈ xs) (hf : f x = none) :
    xs.mapM f = none := by
  cases h : xs.mapM f with
  | none => rfl
  | some ys =>
    obtain ⟨y, hy⟩ := mapM_some_mem h x hx
    rw [hf] at hy
    cases hy

theorem writesPoints_refuse {n : Nat} {t : Transforms} {counting : ReturnCounts → Point → ReturnCounts}
    {point : Nat → PointState → Out PointState} {ps : List Point} {At : Nat → Bytes → Prop}
    (h : WritesPoints n t counting point ps At) (hrec : ps.mapM (storedRecord n t) = none) (st : PointState)
    (ht : st.header.transforms = t) (h0 : At 0 st.cursor) :
    forLoop (List.range ps.length) st (fun st i => point i st) = panicked := by
  rw [List.range_eq_range']
  refine forLoop_range_refuse (P := fun k s => At k s.cursor ∧ s.header.transforms = t)
    (good := fun k => ∀ p, ps[k]? = some p → ∃ rec, storedRecord n t p = some rec) _ _ _ ⟨h0, ht⟩ ?_ ?_ ?_
  · rintro j s _ hj hg ⟨e1, e2⟩
    have hp : ps[j]? = some ps[j] := List.getElem?_eq_getElem (by omega)
    obtain ⟨rec, hr⟩ := hg _ hp
    obtain ⟨c, h5, h6⟩ := h.step j ps[j] rec s hp hr e2 e1
    exact ⟨_, h6, h5, e2⟩
  · rintro j s _ hj hg ⟨e1, e2⟩
    have hp : ps[j]? = some ps[j] := List.getElem?_eq_getElem (by omega)
    refine h.refuse j ps[j] s hp ?_ e2 e1
    cases hr : storedRecord n t ps[j] with
    | none => rfl
    | some rec =>
      refine absurd (fun p e => ?_) hg
      obtain rfl : ps[j] = p := Option.some.inj (hp.symm.trans e)
      exact ⟨rec, hr⟩
  · obtain ⟨i, x, h1, h2⟩ := mapM_none_getElem hrec
    refine ⟨i, Nat.zero_le _, ?_, fun hg => ?_⟩
    · have := (List.getElem?_eq_some_iff.1 h1).1
      omega
    · obtain ⟨rec, hr⟩ := hg x h1
      rw [h2] at hr
      cases hr

theorem writeChunk_refuse {β σ : Type} [BorrowedBuffer β] {b : β} {l : PointLayout} {qs : List Point}
    (hb : ShowsPoints b l qs) {n : Nat} {t : Transforms} {counting : ReturnCounts → Point → ReturnCounts}
    {point : Nat → PointState → Out PointState} (hp : PointOk n t l counting point) (sink : Sink σ)
    (st : ChunkState σ) (ht : st.header.transforms = t) (hc : st.chunk.length = chunkPoints * l.size)
    (k : Nat) (hk : k * chunkPoints ≤ qs.length) (hrec : (chunkOf qs k).mapM (storedRecord n t) = none) :
    writeChunk b l.size sink point st k = panicked := by
  have hlen : len b = qs.length := hb.len_eq
  have hn : (chunkOf qs k).length = min chunkPoints (qs.length - k * chunkPoints) := chunkOf_length qs k
  generalize hN : (chunkOf qs k).length = N at hn
  have hNle : N * l.size ≤ st.chunk.length := by
    rw [hc]; exact Nat.mul_le_mul_right _ (by omega)
  obtain ⟨r, h1, h2, h3⟩ := hb.getPointRange_ok (k * chunkPoints) (k * chunkPoints + N) (st.chunk.take (N * l.size))
    (by omega) (by omega) (by rw [List.length_take]; rw [show k * chunkPoints + N - k * chunkPoints = N by omega]; omega)
  rw [show k * chunkPoints + N - k * chunkPoints = N by omega] at h2 h3
  have hpart : (qs.drop (k * chunkPoints)).take N = chunkOf qs k := by
    unfold chunkOf
    rw [hn, List.take_eq_take_iff]
    simp
  rw [hpart] at h3
  have hput : put st.chunk 0 r = (recordsOf l.size N r).flatten ++ st.chunk.drop r.length := by
    rw [flatten_recordsOf h2]
    unfold put
    simp
  obtain ⟨At, hw, h0⟩ := hp (recordsOf l.size N r) (st.chunk.drop r.length) (recordsOf_allLen h2)
  rw [h3] at hw
  rw [← hput] at h0
  have hloop := writesPoints_refuse hw hrec ⟨put st.chunk 0 r, sink.start st.out, st.header, st.counts⟩ ht h0
  unfold writeChunk
  rw [hlen, ← hn]
  show (sliceGet st.chunk 0 (N * l.size)).bind _ = _
  rw [sliceGet_prefix hNle]
  show (getPointRange b ⟨k * chunkPoints, k * chunkPoints + N⟩ (st.chunk.take (N * l.size))).bind _ = _
  rw [h1]
  show (forLoop (List.range N) _ _).bind _ = _
  rw [← hN, hloop]
  rfl

/-- `P` says what the sink looks like between chunks. -/
theorem writeChunks_refuse {β σ : Type} [BorrowedBuffer β] {b : β} {l : PointLayout} {qs : List Point}
    (hb : ShowsPoints b l qs) {n : Nat} {t : Transforms} {counting : ReturnCounts → Point → ReturnCounts}
    {point : Nat → PointState → Out PointState} (hp : PointOk n t l counting point) (sink : Sink σ)
    (out : σ) (header : LasHeader) (ht : header.transforms = t) (hrec : qs.mapM (storedRecord n t) = none)
    (P : σ → Prop) (h0 : P out)
    (hstart : ∀ s, P s → (sink.start s).pos ≤ (sink.start s).data.length)
    (hstep : ∀ k s recs, Stored n t (chunkOf qs k) recs → P s →
      ∃ s', sink.finish s (chunkOf qs k).length ((sink.start s).write recs.flatten) = .ok s' ∧ P s') :
    writeChunks b l.size sink point out header = panicked := by
  have hpos := chunkPoints_pos
  have hlen : len b = qs.length := hb.len_eq
  unfold writeChunks
  rw [hlen]
  show (forLoop _ _ _).bind _ = _
  rw [List.range_eq_range']
  have inside : ∀ k, k < (qs.length + (chunkPoints - 1)) / chunkPoints → k * chunkPoints < qs.length := fun k hk =>
    (chunk_lt hpos).1 (by rw [Nat.add_sub_assoc hpos]; exact hk)
  rw [forLoop_range_refuse (f := writeChunk b l.size sink point)
    (P := fun _ (st : ChunkState σ) => P st.out ∧ st.header.transforms = t ∧ st.chunk.length = chunkPoints * l.size)
    (good := fun k => ∃ recs, Stored n t (chunkOf qs k) recs) _ _ _ ⟨h0, ht, by simp [zeros]⟩]
  · rfl
  · rintro k st _ hk ⟨recs, hr⟩ ⟨e1, e2, e3⟩
    obtain ⟨chunk, e5, e6⟩ := writeChunk_eq hb hp sink st e2 e3 (hstart _ e1) k (Nat.le_of_lt (inside k (by omega))) hr
    obtain ⟨s', e7, e8⟩ := hstep k st.out recs hr e1
    rw [e7] at e6
    refine ⟨_, e6, e8, ?_, e5⟩
    show (boundedBy st.header (chunkOf qs k)).transforms = t
    rw [boundedBy_fields]
    exact e2
  · rintro k st _ hk hg ⟨e1, e2, e3⟩
    refine writeChunk_refuse hb hp sink st e2 e3 k (Nat.le_of_lt (inside k (by omega))) ?_
    cases hr : (chunkOf qs k).mapM (storedRecord n t) with
    | none => rfl
    | some recs => exact absurd ⟨recs, hr⟩ hg
  · obtain ⟨i, x, h1, h2⟩ := mapM_none_getElem hrec
    have hi := (List.getElem?_eq_some_iff.1 h1).1
    have hdiv := Nat.div_add_mod i chunkPoints
    have hmod := Nat.mod_lt i hpos
    refine ⟨i / chunkPoints, Nat.zero_le _, ?_, ?_⟩
    · rw [Nat.zero_add, ← Nat.add_sub_assoc hpos, chunk_lt hpos, Nat.mul_comm]
      omega
    · rintro ⟨recs, hr⟩
      have hx : x ∈ chunkOf qs (i / chunkPoints) := by
        apply List.mem_of_getElem? (i := i % chunkPoints)
        unfold chunkOf
        rw [List.getElem?_take, if_pos hmod, List.getElem?_drop, Nat.mul_comm, hdiv]
        exact h1
      obtain ⟨y, hy⟩ := mapM_some_mem hr x hx
      rw [h2] at hy
      cases hy

/-- There are no readers for a layout with an attribute that cannot be converted. -/
theorem attributeReaders_refuse {l : PointLayout} (hl : Solid l) {f : Format} {d : AttrDef} (hd : d ∈ writtenAttributes f)
    {r0 : Bytes} (h0 : lasValue (pointOf l r0) d.name = none) (hr0 : r0.length = l.size) :
    attributeReaders l f = panicked := by
  have key : ∀ ds : List AttrDef, (∀ d ∈ ds, d ∈ writtenAttributes f) → d ∈ ds →
      (ds.mapM fun d => do
          let r ← attributeReader l d
          pure (d, r)) = panicked := by
    intro ds
    induction ds with
    | nil => intro _ h; cases h
    | cons x ds ih =>
      intro hds hmem
      rcases attributeReader_spec hl (written_covered f x (hds x (by simp))).1 with ⟨rd, h3, h4⟩ | ⟨h3, _⟩
      · have hne : d ≠ x := by
          rintro rfl
          obtain ⟨b, _, hb⟩ := h4 [r0] [] 0 r0 (by intro y hy; simp at hy; subst hy; exact hr0) rfl
          rw [h0] at hb
          cases hb
        have := ih (fun y hy => hds y (by simp [hy])) (by simpa [hne] using hmem)
        rw [List.mapM_cons, h3, this]
        rfl
      · rw [List.mapM_cons, h3]
        rfl
  exact key _ (fun _ h => h) hd

/-- Readers for a batch exist, or the writer panics. -/
theorem batch_readers_or {n : Nat} {f : Format} (hf : Format.new n = .ok f) (t : Transforms) (b : Batch)
    (h0 : b.points ≠ []) :
    (∃ readers, attributeReaders b.layout f = .ok readers ∧ PointOk n t b.layout countNothing (writeCustomPoint f readers)) ∨
      attributeReaders b.layout f = panicked := by
  obtain ⟨p, hp⟩ := List.exists_mem_of_ne_nil _ h0
  obtain ⟨i, hi⟩ := List.mem_iff_getElem?.1 hp
  obtain ⟨r, _, h1, h2⟩ := b.shows.getPoint_ok i p (zeros b.layout.size) hi (by simp [zeros])
  by_cases hall : ∀ d ∈ writtenAttributes f, ∃ v, lasValue (pointOf b.layout r) d.name = some v
  · obtain ⟨readers, h3, h4⟩ := attributeReaders_spec (f := f) b.solid (r0 := r) hall
    exact Or.inl ⟨readers, h3, fun rs rest hall => ⟨_, custom_writes hf t h4 hall rest, rfl⟩⟩
  · push Not at hall
    obtain ⟨d, hd, hn⟩ := hall
    right
    refine attributeReaders_refuse b.solid hd (r0 := r) ?_ h1
    cases hv : lasValue (pointOf b.layout r) d.name with
    | none => rfl
    | some v => exact absurd hv (hn v)

theorem nonempty_of_refused {n : Nat} {t : Transforms} {ps : List Point} (h : ps.mapM (storedRecord n t) = none) :
    ps ≠ [] := by rintro rfl; cases h

/-- A LAS writer that gets a point it cannot store panics. -/
theorem LasInv.refuse {encode : LasHeader → Bytes} {H : Nat} {vlrs evlrs : Bytes} {n : Nat} {f : Format}
    (hf : Format.new n = .ok f) {l : PointLayout} (hd : DefaultFor f l) {start : LasHeader} (hs : start.format % 64 = n)
    {ps counted : List Point} {recs : List Bytes} {w : RawLasWriter}
    (i : LasInv encode H vlrs evlrs n l start ps counted recs w) (b : Batch)
    (h : b.points.mapM (storedRecord n start.transforms) = none) : w.write b.buffer = panicked := by
  have h0 := nonempty_of_refused h
  have hl0 : ¬ len b.buffer = 0 := by
    rw [batch_len]; intro e; exact h0 (List.eq_nil_of_length_eq_zero e)
  have hfm : Format.new (w.header.format % 64) = .ok f := by rw [i.header.format, hs]; exact hf
  have hpos : w.writer.pos ≤ w.writer.data.length := by
    obtain ⟨hd, tail, _, e2, e3, _⟩ := i.file.bytes
    rw [e3, e2]
    simp
  have run : ∀ {counting point}, PointOk n start.transforms b.layout counting point →
      writeChunks b.buffer b.layout.size RawLasWriter.sink point w.writer w.header = panicked := by
    intro counting point hp
    exact writeChunks_refuse b.shows hp _ _ _ i.header.transforms h (fun s => s.pos ≤ s.data.length) hpos
      (fun _ h => h) fun k s recs _ hs => ⟨_, rfl, write_inside hs _⟩
  unfold RawLasWriter.write
  by_cases hlay : b.layout = l
  · have hsol : Solid l := hlay ▸ b.solid
    rw [if_pos (by rw [batch_layout, i.layout]; exact hlay)]
    unfold RawLasWriter.writeDefault
    rw [if_neg hl0, hfm]
    show (writeChunks b.buffer w.defaultLayout.size _ _ _ w.header).bind _ = _
    rw [i.layout, ← hlay, run (hlay ▸ default_pointOk hf start.transforms hd hsol)]
    rfl
  · rw [if_neg (by rw [batch_layout, i.layout]; exact hlay)]
    unfold RawLasWriter.writeCustom
    rw [if_neg hl0, hfm]
    show (attributeReaders (BorrowedBuffer.layout b.buffer) f).bind _ = _
    rw [batch_layout]
    rcases batch_readers_or hf start.transforms b h0 with ⟨readers, r1, r2⟩ | r1
    · rw [r1]
      show (writeChunks b.buffer b.layout.size _ _ _ w.header).bind _ = _
      rw [run r2]
      rfl
    · rw [r1]
      rfl

/-- A LAZ writer that gets a point it cannot store panics. -/
theorem LazInv.refuse {n : Nat} {f : Format} (hf : Format.new n = .ok f) {l : PointLayout} (hd : DefaultFor f l)
    {start : LasHeader} (hs : start.format % 64 = n) (hrl : start.recordLength = lasRecordLength n)
    {ps counted : List Point} {w : RawLazWriter} (i : LazInv n l start ps counted w) (b : Batch)
    (h : b.points.mapM (storedRecord n start.transforms) = none) : w.write b.buffer = panicked := by
  have hn := (itemsOf_eq hf).2
  have h0 := nonempty_of_refused h
  have hl0 : ¬ len b.buffer = 0 := by
    rw [batch_len]; intro e; exact h0 (List.eq_nil_of_length_eq_zero e)
  have hfm : Format.new (w.header.format % 64) = .ok f := by rw [i.header.format, hs]; exact hf
  have hrec : w.header.recordLength = lasRecordLength n := by rw [i.header.recordLength, hrl]
  have run : ∀ {counting point} (points : Nat → Nat), (∀ k, (points k = k ∨ points k = chunkPoints)) →
      PointOk n start.transforms b.layout counting point →
      writeChunks b.buffer b.layout.size (RawLazWriter.sink (lasRecordLength n) points) point
        ⟨w.handed, zeros (chunkPoints * lasRecordLength n)⟩ w.header = panicked := by
    intro counting point points hpts hp
    refine writeChunks_refuse b.shows hp _ _ _ i.header.transforms h
      (fun s => s.buffer.length = chunkPoints * lasRecordLength n) (by simp [zeros]) (fun s _ => Nat.zero_le _) ?_
    intro k s recs hr hs
    have hall : AllLen (lasRecordLength n) recs := stored_allLen hn (fun p hp => batch_sized b p
      (List.mem_of_mem_drop (List.mem_of_mem_take hp))) hr
    have hfl := hall.flatten_length
    have hlen : recs.length = (chunkOf b.points k).length := mapM_length hr
    have hck : (chunkOf b.points k).length ≤ chunkPoints := by rw [chunkOf_length]; exact Nat.min_le_left _ _
    have hw : ((⟨s.buffer, 0⟩ : Stream).write recs.flatten).data = recs.flatten ++ s.buffer.drop recs.flatten.length := by
      have := write_at_end (a := []) (b := recs.flatten) (t := s.buffer)
      rw [List.nil_append] at this
      rw [show (⟨s.buffer, 0⟩ : Stream) = ⟨s.buffer, ([] : Bytes).length⟩ from rfl, this]
      rfl
    have hle : recs.flatten.length ≤ chunkPoints * lasRecordLength n := by
      rw [hfl, hlen]; exact Nat.mul_le_mul_right _ hck
    have hwl : ((⟨s.buffer, 0⟩ : Stream).write recs.flatten).data.length = chunkPoints * lasRecordLength n := by
      rw [hw, List.length_append, List.length_drop, hs]
      omega
    refine ⟨⟨s.handed ++ (((⟨s.buffer, 0⟩ : Stream).write recs.flatten).data.take
      (points (chunkOf b.points k).length * lasRecordLength n)), ((⟨s.buffer, 0⟩ : Stream).write recs.flatten).data⟩, ?_, hwl⟩
    show (sliceGet ((⟨s.buffer, 0⟩ : Stream).write recs.flatten).data 0
        (points (chunkOf b.points k).length * lasRecordLength n)).bind _ = _
    rw [sliceGet_prefix (by
      rw [hwl]
      apply Nat.mul_le_mul_right
      rcases hpts (chunkOf b.points k).length with e | e <;> omega)]
    rfl
  unfold RawLazWriter.write
  by_cases hlay : b.layout = l
  · have hsol : Solid l := hlay ▸ b.solid
    rw [if_neg (not_not.2 (by rw [batch_layout, i.layout]; exact hlay))]
    unfold RawLazWriter.writeDefault
    rw [if_neg hl0, hfm]
    show (writeChunks b.buffer w.defaultLayout.size _ _ _ w.header).bind _ = _
    rw [i.layout, hrec, ← hlay, run id (fun _ => Or.inl rfl) (hlay ▸ default_pointOk hf start.transforms hd hsol)]
    rfl
  · rw [if_pos (by rw [batch_layout, i.layout]; exact hlay)]
    unfold RawLazWriter.writeCustom
    rw [if_neg hl0, hfm]
    show (attributeReaders (BorrowedBuffer.layout b.buffer) f).bind _ = _
    rw [batch_layout]
    rcases batch_readers_or hf start.transforms b h0 with ⟨readers, r1, r2⟩ | r1
    · rw [r1]
      show (writeChunks b.buffer b.layout.size _ _ _ w.header).bind _ = _
      rw [hrec, run (fun _ => chunkPoints) (fun _ => Or.inr rfl) r2]
      rfl
    · rw [r1]
      rfl

end Pasture.Las
