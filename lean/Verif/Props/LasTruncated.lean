import Verif.Lemmas.LasTruncated

/-!
# C93: truncated LAS and LAZ files
-/

namespace Pasture.Props

open Spec Las BorrowedBuffer

theorem complete_same {σ : Type} [Truncates σ] {k : Nat} {r r' : RawReader σ} (h : SameFile r r') (m : Nat) :
    Complete k r' m ↔ Complete k r m := by
  obtain ⟨_, _, _, _, e1, e2⟩ := h
  unfold Complete
  rw [e1, e2]

section
variable {σ : Type} [RecordSource σ] [StoresRecords σ] [Truncates σ] [LawfulCut σ]
  [PointReader (RawReader σ)] [CorrectReader σ] [CutReader σ]

omit [CorrectReader σ] in
/-- What one call on a file that was cut off amounts to, given what it did on the whole file. -/
theorem into_truncated {β : Type} [BorrowedMutBuffer β] [AsMemoryMut β] [CutTarget β] {k : Nat} {r r' : RawReader σ}
    {recs : List Bytes} {i n : Nat} {b b' : β} {count : Nat} (h : Standing r recs i) (h' : Standing r' recs (i + n))
    (hs : SameFile r r') (hread : PointReader.readInto r b count = .ok (n, b', r')) :
    (n = 0 ∨ Complete k r (i + n) → PointReader.readInto (r.cut k) b count = .ok (n, b', r'.cut k)) ∧
      (n ≠ 0 → ¬ Complete k r (i + n) → PointReader.readInto (r.cut k) b count = .error .err) := by
  obtain ⟨_, c2, c3⟩ := CutReader.into (k := k) hread
  have hc : Complete k r (i + n) ↔ LawfulCut.pos r'.reader ≤ k := by
    rw [← complete_same hs]
    exact CutReader.complete_iff h'
  rw [hc]
  refine ⟨?_, ?_⟩
  · rintro (h0 | h1)
    · subst h0
      exact c2 (.inr (CutReader.stays h h' hs))
    · exact c2 (.inl h1)
  · intro h0 h1
    exact c3 (by omega) (CutReader.behind h h' hs (by omega))

theorem read_into_truncated {β : Type} [BorrowedMutBuffer β] [AsMemoryMut β] [ReadTarget β] [CutTarget β] {k : Nat}
    {r : RawReader σ} {recs : List Bytes} {i : Nat} (h : Standing r recs i) {target : PointLayout} (ht : Solid target)
    (hr : target = r.recordsLayout ∨ Readable r.recordsLayout target r.transforms) {b : β}
    (hb : ReadTarget.Consistent b) {qs : List Point} (hq : ShowsPoints b target qs) {count : Nat}
    (hc : count ≤ qs.length) :
    ReadTruncated k r recs i target qs count ReadTarget.Consistent (PointReader.readInto (r.cut k) b count) := by
  have hcorrect := CorrectReader.correct h ht hr hb hq hc
  have ⟨b', r', h1, h2, h3, _⟩ := hcorrect
  rw [h1] at hcorrect
  obtain ⟨t1, t2⟩ := into_truncated (k := k) h h3 h2 h1
  exact ⟨fun h0 => ⟨b', r', t1 h0, hcorrect⟩, t2⟩

variable {β : Type} [OwningBuffer β] [AsMemoryMut β] [MakeBufferFromLayout β] [ReadOwner β] [CutTarget β]

theorem read_truncated {k : Nat} {r : RawReader σ} {recs : List Bytes} {i : Nat} (h : Standing r recs i)
    (hl : Solid r.layout) (hr : r.layout = r.recordsLayout ∨ Readable r.recordsLayout r.layout r.transforms) (n : Nat) :
    ∃ (b : β) (r' : RawReader σ), readPoints β r n = .ok (b, r') ∧ SameFile r r' ∧
      Standing r' recs (i + min n (recs.length - i)) ∧
      ShowsPoints b r.layout (((recs.drop i).take n).map (freshPoint r)) ∧
      (min n (recs.length - i) = 0 ∨ Complete k r (i + min n (recs.length - i)) →
        readPoints β (r.cut k) n = .ok (b, r'.cut k)) ∧
      (min n (recs.length - i) ≠ 0 → ¬ Complete k r (i + min n (recs.length - i)) →
        readPoints β (r.cut k) n = .error .err) := by
  obtain ⟨b, r', h1, h2, h3, _, h5⟩ := read_step (β := β) r recs i h hl hr n
  refine ⟨b, r', h1, h2, h3, h5, ?_⟩
  unfold readPoints at h1 ⊢
  rw [CutReader.layout_cut k r]
  simp only at h1 ⊢
  obtain ⟨⟨m, b₁, r₁⟩, e1, h1⟩ := bind_parts h1
  obtain ⟨e2, e3⟩ : OwningBuffer.resize b₁ m = b ∧ r₁ = r' := by
    have := Except.ok.inj h1
    simpa using this
  subst e3
  obtain ⟨f1, f2⟩ := ReadOwner.fresh (β := β) hl n
  obtain ⟨b₂, r₂, g1, _⟩ := CorrectReader.correct h hl hr f1 f2 (count := n) (by simp)
  rw [CorrectReader.layout_eq r] at e1 ⊢
  obtain ⟨e4, e5, e6⟩ : min n (recs.length - i) = m ∧ b₂ = b₁ ∧ r₂ = r₁ := by
    have := Except.ok.inj (g1.symm.trans e1)
    simpa using this
  rw [e4] at h3 ⊢
  obtain ⟨t1, t2⟩ := into_truncated (k := k) h h3 h2 e1
  refine ⟨fun h0 => ?_, fun h0 h1 => ?_⟩
  · rw [t1 h0]
    show Except.ok (OwningBuffer.resize b₁ m, _) = _
    rw [e2]
  · rw [t2 h0 h1]
    rfl

theorem session_truncated [LawfulSource σ] (k : Nat) : ∀ (calls : List ReaderCall) (r : RawReader σ) (recs : List Bytes) (i : Nat),
    Standing r recs i → Solid r.layout →
    (r.layout = r.recordsLayout ∨ Readable r.recordsLayout r.layout r.transforms) → recs.length < 2 ^ 63 →
    seeksInRange recs.length i calls →
    ((∀ e ∈ readEnds recs.length i calls, Complete k r e) → ∃ bs, runCalls β (r.cut k) calls = .ok bs ∧
      List.Forall₂ (fun b part => ShowsPoints b r.layout (part.map (freshPoint r))) bs (partsRead recs i calls)) ∧
    ((∃ e ∈ readEnds recs.length i calls, ¬ Complete k r e) → runCalls β (r.cut k) calls = .error .err) := by
  intro calls
  induction calls with
  | nil => intro r recs i _ _ _ _ _; exact ⟨fun _ => ⟨[], rfl, .nil⟩, fun ⟨_, h, _⟩ => nomatch h⟩
  | cons c calls ih =>
    intro r recs i h hl hr hn hs
    have same : ∀ r' : RawReader σ, SameFile r r' → Solid r'.layout ∧
        (r'.layout = r'.recordsLayout ∨ Readable r'.recordsLayout r'.layout r'.transforms) ∧
        r'.layout = r.layout ∧ freshPoint r' = freshPoint r := by
      rintro r' ⟨e1, e2, e3, e4, e5, e6⟩
      refine ⟨e3 ▸ hl, by rw [e2, e3, e4]; exact hr, e3, ?_⟩
      funext rec
      unfold freshPoint
      rw [e2, e3, e4]
    cases c with
    | read n =>
      obtain ⟨b, r', h1, h2, h3, h5, h6, h7⟩ := read_truncated (β := β) (k := k) h hl hr n
      obtain ⟨s1, s2, s3, s4⟩ := same r' h2
      obtain ⟨g1, g2⟩ := ih r' recs _ h3 s1 s2 hn hs
      simp only [complete_same h2] at g1 g2
      rw [s3, s4] at g1
      by_cases hc : min n (recs.length - i) = 0 ∨ Complete k r (i + min n (recs.length - i))
      · refine ⟨fun ha => ?_, fun ⟨e, he, hne⟩ => ?_⟩
        · obtain ⟨bs, k1, k2⟩ := g1 fun e he => ha e (List.mem_append_right _ he)
          refine ⟨b :: bs, ?_, .cons h5 k2⟩
          unfold runCalls
          rw [h6 hc]
          show (runCalls β (r'.cut k) calls).bind _ = _
          rw [k1]
          rfl
        · unfold runCalls
          rw [h6 hc]
          show (runCalls β (r'.cut k) calls).bind _ = _
          rw [g2 ⟨e, ?_, hne⟩]
          · rfl
          · rcases List.mem_append.1 he with he | he
            · split at he
              · cases he
              · next h0 =>
                rw [List.mem_singleton.1 he] at hne
                exact absurd (hc.resolve_left h0) hne
            · exact he
      · have h0 : min n (recs.length - i) ≠ 0 := fun h => hc (.inl h)
        have h1 : ¬ Complete k r (i + min n (recs.length - i)) := fun h => hc (.inr h)
        refine ⟨fun ha => absurd (ha _ (List.mem_append_left _ ?_)) h1, fun _ => ?_⟩
        · rw [if_neg h0]; exact List.mem_singleton.2 rfl
        · unfold runCalls
          rw [h7 h0 h1]
          rfl
    | seek p =>
      obtain ⟨⟨h0, h1⟩, hs⟩ := hs
      obtain ⟨r', g1, g2, g3⟩ := C39_seek_partial r recs i h hn p h0 h1
      obtain ⟨s1, s2, s3, s4⟩ := same r' g2
      obtain ⟨k1, k2⟩ := ih r' recs _ g3 s1 s2 hn hs
      simp only [complete_same g2] at k1 k2
      rw [s3, s4] at k1
      have hrun : runCalls β (r.cut k) (.seek p :: calls) = runCalls β (r'.cut k) calls := by
        conv => lhs; unfold runCalls
        rw [show SeekToPoint.seekPoint (r.cut k) p = _ from seek_cut g1]
        rfl
      rw [hrun]
      exact ⟨k1, k2⟩

end

section
variable (k : Nat) (recs : List Bytes) (i : Nat) (target : PointLayout) (ht : Solid target) (qs : List Point) (count : Nat)
  (hc : count ≤ qs.length)
include ht hc

/-- **C93**, one call on a LAS file that ends after `k` bytes, interleaved buffer of any readable layout: the points are
    those of the whole file if all of them are there; if the end of one is missing, there is an error. -/
theorem C93_las_interleaved (r : RawLasReader) (h : Standing r recs i)
    (hr : target = r.recordsLayout ∨ Readable r.recordsLayout target r.transforms)
    (b : VectorBuffer) (hb : VectorConsistent b) (hq : ShowsPoints b target qs) :
    ReadTruncated k r recs i target qs count VectorConsistent (PointReader.readInto (r.cut k) b count) :=
  read_into_truncated h ht hr hb hq hc

/-- **C93**, one call on a LAS file that ends after `k` bytes, columnar buffer. -/
theorem C93_las_columnar (r : RawLasReader) (h : Standing r recs i)
    (hr : target = r.recordsLayout ∨ Readable r.recordsLayout target r.transforms)
    (b : HashMapBuffer) (hb : HashMapConsistent b) (hq : ShowsPoints b target qs) :
    ReadTruncated k r recs i target qs count HashMapConsistent (PointReader.readInto (r.cut k) b count) :=
  read_into_truncated h ht hr hb hq hc

/-- **C93**, one call on a LAZ file of which `k` records are left, interleaved buffer. -/
theorem C93_laz_interleaved (r : RawLazReader) (h : Standing r recs i)
    (hr : target = r.recordsLayout ∨ Readable r.recordsLayout target r.transforms)
    (b : VectorBuffer) (hb : VectorConsistent b) (hq : ShowsPoints b target qs) :
    ReadTruncated k r recs i target qs count VectorConsistent (PointReader.readInto (r.cut k) b count) :=
  read_into_truncated h ht hr hb hq hc

/-- **C93**, one call on a LAZ file of which `k` records are left, columnar buffer. -/
theorem C93_laz_columnar (r : RawLazReader) (h : Standing r recs i)
    (hr : target = r.recordsLayout ∨ Readable r.recordsLayout target r.transforms)
    (b : HashMapBuffer) (hb : HashMapConsistent b) (hq : ShowsPoints b target qs) :
    ReadTruncated k r recs i target qs count HashMapConsistent (PointReader.readInto (r.cut k) b count) :=
  read_into_truncated h ht hr hb hq hc

end

/-- Every `read` of a sequence of calls returned what it should. -/
def Delivered {σ β : Type} [BorrowedBuffer β] (r : RawReader σ) (recs : List Bytes) (i : Nat) (calls : List ReaderCall)
    (out : Out (List β)) : Prop :=
  ∃ bs, out = .ok bs ∧
    List.Forall₂ (fun b part => ShowsPoints b r.layout (part.map (freshPoint r))) bs (partsRead recs i calls)

/-- **C93**: any sequence of `read` and `seek_point` calls on a LAS file that ends after `k` bytes gives exactly the points
    the whole file has there, if no read reaches a missing record; otherwise it ends with an error. -/
theorem C93_las_session (k : Nat) (r : RawLasReader) (recs : List Bytes) (i : Nat) (h : Standing r recs i)
    (hl : Solid r.layout) (hr : r.layout = r.recordsLayout ∨ Readable r.recordsLayout r.layout r.transforms)
    (hn : recs.length < 2 ^ 63) (calls : List ReaderCall) (hs : seeksInRange recs.length i calls) :
    ((∀ e ∈ readEnds recs.length i calls, Complete k r e) →
      Delivered r recs i calls (runCalls VectorBuffer (r.cut k) calls) ∧
      Delivered r recs i calls (runCalls HashMapBuffer (r.cut k) calls)) ∧
    ((∃ e ∈ readEnds recs.length i calls, ¬ Complete k r e) →
      runCalls VectorBuffer (r.cut k) calls = .error .err ∧ runCalls HashMapBuffer (r.cut k) calls = .error .err) := by
  obtain ⟨a1, a2⟩ := session_truncated (β := VectorBuffer) k calls r recs i h hl hr hn hs
  obtain ⟨b1, b2⟩ := session_truncated (β := HashMapBuffer) k calls r recs i h hl hr hn hs
  exact ⟨fun h => ⟨a1 h, b1 h⟩, fun h => ⟨a2 h, b2 h⟩⟩

/-- **C93**, the same for a LAZ file of which `k` records are left. -/
theorem C93_laz_session (k : Nat) (r : RawLazReader) (recs : List Bytes) (i : Nat) (h : Standing r recs i)
    (hl : Solid r.layout) (hr : r.layout = r.recordsLayout ∨ Readable r.recordsLayout r.layout r.transforms)
    (hn : recs.length < 2 ^ 63) (calls : List ReaderCall) (hs : seeksInRange recs.length i calls) :
    ((∀ e ∈ readEnds recs.length i calls, Complete k r e) →
      Delivered r recs i calls (runCalls VectorBuffer (r.cut k) calls) ∧
      Delivered r recs i calls (runCalls HashMapBuffer (r.cut k) calls)) ∧
    ((∃ e ∈ readEnds recs.length i calls, ¬ Complete k r e) →
      runCalls VectorBuffer (r.cut k) calls = .error .err ∧ runCalls HashMapBuffer (r.cut k) calls = .error .err) := by
  obtain ⟨a1, a2⟩ := session_truncated (β := VectorBuffer) k calls r recs i h hl hr hn hs
  obtain ⟨b1, b2⟩ := session_truncated (β := HashMapBuffer) k calls r recs i h hl hr hn hs
  exact ⟨fun h => ⟨a1 h, b1 h⟩, fun h => ⟨a2 h, b2 h⟩⟩

/-- C93, opening: a file that was cut off behind its header opens to the reader of the whole file, cut off. With this the
    theorems above apply to every file `C38_open_las` and `C38_open_laz` speak about. -/
theorem C93_open (k : Nat) (data : Bytes) (records : List Bytes) (md : LasMetadata) (count : Nat) (t : Transforms)
    (offset size : Nat) (exact : Bool) :
    openLas (data.take k) md count t offset size exact = (openLas data md count t offset size exact).map (RawReader.cut k) ∧
      openLaz (records.take k) md count t offset size exact =
        (openLaz records md count t offset size exact).map (RawReader.cut k) := by
  unfold openLas openLaz RawReader.ofHeader
  constructor
  · cases pointLayoutFromMetadata md exact with
    | error e => rfl
    | ok l =>
      cases pointLayoutFromMetadata md true with
      | error e => rfl
      | ok l' => rfl
  · cases bailIf (md.format.isExtended && md.format.hasWaveform) with
    | error e => rfl
    | ok u =>
      cases pointLayoutFromMetadata md exact with
      | error e => rfl
      | ok l =>
        cases pointLayoutFromMetadata md true with
        | error e => rfl
        | ok l' => rfl

/-! ## Concrete cases -/

/-- Three records of format 0 behind two other bytes, cut off in the middle of the second one: the first can be read, the
    first two together cannot, in either kind of buffer. -/
example (t : Transforms) : ∃ f r, Format.new 0 = .ok f ∧
    openLas ([9, 9] ++ threeRecords.flatten) ⟨f, none⟩ 3 t 2 20 false = .ok r ∧
    openLas (([9, 9] ++ threeRecords.flatten).take 30) ⟨f, none⟩ 3 t 2 20 false = .ok (r.cut 30) ∧
    Delivered r threeRecords 0 [.read 1] (runCalls VectorBuffer (r.cut 30) [.read 1]) ∧
    runCalls VectorBuffer (r.cut 30) [.read 1, .read 1] = .error .err ∧
    runCalls HashMapBuffer (r.cut 30) [.read 2] = .error .err := by
  obtain ⟨f, l, raw, h1, h2, h3, h4, h5, h6, h7, h8, _⟩ := format_layouts 0 (by decide) false t
  have hopen : openLas ([9, 9] ++ threeRecords.flatten) ⟨f, none⟩ 3 t 2 20 false =
      .ok ⟨⟨[9, 9] ++ threeRecords.flatten, 2⟩, 3, t, l, raw, 0, 2, 20⟩ := by
    unfold openLas RawReader.ofHeader
    rw [h2, h3]
    rfl
  have hst : Standing (⟨⟨[9, 9] ++ threeRecords.flatten, 2⟩, 3, t, l, raw, 0, 2, 20⟩ : RawLasReader) threeRecords 0 :=
    ⟨⟨by show window ([9, 9] ++ threeRecords.flatten) 2 (3 * 20) = _; decide, rfl⟩, rfl, rfl, Nat.zero_le _,
      by show ∀ rec ∈ threeRecords, rec.length = 20; decide, h4, h5, h6⟩
  refine ⟨f, _, h1, hopen, ?_, ?_, ?_, ?_⟩
  · rw [(C93_open 30 _ [] _ _ _ _ _ _).1, hopen]
    rfl
  · exact ((C93_las_session 30 _ _ _ hst h7 h8 (by decide) [.read 1] trivial).1 (by
      unfold Complete; show ∀ e ∈ [1], 2 + e * 20 ≤ 30; decide)).1
  · exact ((C93_las_session 30 _ _ _ hst h7 h8 (by decide) [.read 1, .read 1] trivial).2 (by
      unfold Complete; show ∃ e ∈ [1, 2], ¬ 2 + e * 20 ≤ 30; decide)).1
  · exact ((C93_las_session 30 _ _ _ hst h7 h8 (by decide) [.read 2] trivial).2 (by
      unfold Complete; show ∃ e ∈ [2], ¬ 2 + e * 20 ≤ 30; decide)).2

end Pasture.Props
