import Verif.Spec.LasReader
import Verif.Props.BufferConvert
import Verif.Lemmas.Sort

/-! # Lemmas: LAS readers -/

namespace Pasture

theorem forLoop_range_total {σ : Type} {f : σ → Nat → Out σ} {P : Nat → σ → Prop} :
    ∀ (n : Nat) (s : σ), P 0 s → (∀ k < n, ∀ s, P k s → ∃ s', f s k = .ok s' ∧ P (k + 1) s') →
      ∃ s', forLoop (List.range n) s f = .ok s' ∧ P n s' := by
  intro n
  induction n with
  | zero => intro s h0 _; exact ⟨s, rfl, h0⟩
  | succ n ih =>
    intro s h0 step
    obtain ⟨t, h1, h2⟩ := ih s h0 (fun k hk => step k (by omega))
    obtain ⟨s', h3, h4⟩ := step n (by omega) t h2
    refine ⟨s', ?_, h4⟩
    rw [List.range_succ, forLoop_append, h1]
    show (forLoop [n] t f) = _
    rw [forLoop_cons, h3]
    rfl

/-- Which chunks a loop over `n` items in chunks of `c` visits. -/
theorem chunk_lt {n c k : Nat} (hc : 0 < c) : k < (n + c - 1) / c ↔ k * c < n := by
  rw [Nat.lt_iff_add_one_le, Nat.le_div_iff_mul_le hc, Nat.add_mul]
  omega

theorem chunk_size {n c k : Nat} (hc : 0 < c) (hk : k < (n + c - 1) / c) :
    (if k = (n + c - 1) / c - 1 then n - k * c else c) = min c (n - k * c) ∧ 0 < min c (n - k * c) := by
  have h1 := (chunk_lt hc).1 hk
  by_cases h : k = (n + c - 1) / c - 1
  · rw [if_pos h]
    have h2 : ¬ k + 1 < (n + c - 1) / c := by omega
    rw [chunk_lt hc, Nat.add_mul] at h2
    omega
  · rw [if_neg h]
    have h2 : k + 1 < (n + c - 1) / c := by omega
    rw [chunk_lt hc, Nat.add_mul] at h2
    omega

theorem chunk_last {n c : Nat} (hc : 0 < c) : n ≤ (n + c - 1) / c * c := by
  have := (chunk_lt (n := n) (c := c) (k := (n + c - 1) / c) hc).not.1 (Nat.lt_irrefl _)
  omega

open Spec

theorem overwrite_next {α : Type} (xs a b : List α) :
    overwrite (overwrite xs 0 a) a.length b = overwrite xs 0 (a ++ b) := by
  unfold overwrite
  have e1 : (xs.take 0 ++ a ++ xs.drop (0 + a.length)).take a.length = a := by simp
  have e2 : (xs.take 0 ++ a ++ xs.drop (0 + a.length)).drop (a.length + b.length) =
      xs.drop (0 + (a ++ b).length) := by
    rw [List.take_zero, List.nil_append, List.drop_append, List.drop_drop,
      List.drop_eq_nil_of_le (by omega : a.length ≤ a.length + b.length)]
    simp
  rw [e1, e2]
  simp

namespace Las

/-! ## Streams -/

/-- What the readers need of a stream. -/
class LawfulSource (σ : Type) [RecordSource σ] [StoresRecords σ] : Prop where
  fill_ok : ∀ {s : σ} {off sz : Nat} {recs : List Bytes} {i k : Nat} {old : Bytes}, 0 < sz → 0 < k →
    AllLen sz recs → StoresRecords.holds s off sz recs i → i + k ≤ recs.length → old.length = k * sz →
    RecordSource.fill s old = .ok ((recs.drop i).take k).flatten ∧
      StoresRecords.holds (RecordSource.advance s (k * sz)) off sz recs (i + k)
  seek_ok : ∀ {s : σ} {off sz : Nat} {recs : List Bytes} {i j : Nat},
    StoresRecords.holds s off sz recs i → StoresRecords.holds (RecordSource.toRecord off sz s j) off sz recs j

theorem part_flatten {sz : Nat} {recs : List Bytes} (h : AllLen sz recs) (i k : Nat) :
    ((recs.drop i).take k).flatten = (recs.flatten.drop (i * sz)).take (k * sz) := by
  rw [← (h.drop i).flatten_take, ← h.flatten_drop]

instance lawfulStream : LawfulSource Stream where
  fill_ok := by
    intro s off sz recs i k old hsz hk hall ⟨hd, hp⟩ hik hold
    have hfl := hall.flatten_length
    have hlen : off + recs.length * sz ≤ s.data.length ∨ recs.length * sz = 0 := by
      rw [← hd] at hfl
      simp only [window, List.length_take, List.length_drop] at hfl
      omega
    have hle : i * sz + k * sz ≤ recs.length * sz := by
      rw [← Nat.add_mul]; exact Nat.mul_le_mul_right _ hik
    have hpos := Nat.mul_pos hk hsz
    refine ⟨?_, hd, ?_⟩
    · show (if old.length = 0 ∨ s.pos + old.length ≤ s.data.length then _ else _) = _
      rw [if_pos (by omega), part_flatten hall, ← hd, hp, hold]
      unfold window
      rw [List.drop_take, List.take_take, List.drop_drop]
      rw [Nat.min_eq_left (by omega)]
    · show s.pos + k * sz = _
      rw [hp, Nat.add_mul]; omega
  seek_ok := by
    intro s off sz recs i j ⟨hd, _⟩
    exact ⟨hd, rfl⟩

instance lawfulLazStream : LawfulSource LazStream where
  fill_ok := by
    intro s off sz recs i k old hsz hk hall ⟨⟨more, h1⟩, h2, h3⟩ hik hold
    have hn : old.length / s.itemSize = k := by rw [hold, h2, Nat.mul_div_cancel _ hsz]
    refine ⟨?_, ⟨more, h1⟩, h2, ?_⟩
    · show (if old.length / s.itemSize = 0 ∨ s.next + old.length / s.itemSize ≤ s.records.length then
        Except.ok (put old 0 ((s.records.drop s.next).take (old.length / s.itemSize)).flatten) else _) = _
      rw [hn, h1, h3, if_pos (by rw [List.length_append]; omega), List.drop_append_of_le_length (by omega),
        List.take_append_of_le_length (by rw [List.length_drop]; omega)]
      have : ((recs.drop i).take k).flatten.length = old.length := by
        rw [((hall.drop i).take k).flatten_length, hold]
        congr 1
        simp; omega
      simp [put, this]
    · show s.next + k * sz / s.itemSize = _
      rw [h2, Nat.mul_div_cancel _ hsz, h3]
  seek_ok := by
    intro s off sz recs i j ⟨h1, h2, _⟩
    exact ⟨h1, h2, rfl⟩

/-! ## Reading records as they are -/

theorem standing_pos {σ : Type} [StoresRecords σ] {r : RawReader σ} {recs : List Bytes} {i : Nat}
    (h : Standing r recs i) : 0 < r.sizeOfPoint := by
  rw [← h.described]
  exact h.solid.size_pos

theorem standing_allLen {σ : Type} [StoresRecords σ] {r : RawReader σ} {recs : List Bytes} {i : Nat}
    (h : Standing r recs i) : AllLen r.recordsLayout.size recs := by
  intro x hx; rw [h.described]; exact h.sizes x hx

/-- The reader after reading on. -/
theorem standing_advance {σ : Type} [StoresRecords σ] {r : RawReader σ} {recs : List Bytes} {i n : Nat} (h : Standing r recs i)
    (hn : i + n ≤ recs.length) {s : σ}
    (hs : StoresRecords.holds s r.offsetToFirstPoint r.sizeOfPoint recs (i + n)) :
    Standing { r with reader := s, currentPointIndex := r.currentPointIndex + n } recs (i + n) ∧
      SameFile r { r with reader := s, currentPointIndex := r.currentPointIndex + n } :=
  ⟨⟨hs, h.count, by simp [h.index], hn, h.sizes, h.described, h.short, h.solid⟩, rfl, rfl, rfl, rfl, rfl, rfl⟩

theorem standing_remaining {σ : Type} [StoresRecords σ] {r : RawReader σ} {recs : List Bytes} {i : Nat} (h : Standing r recs i) :
    r.remainingPoints = recs.length - i := by
  unfold RawReader.remainingPoints
  rw [h.count, h.index]

section
variable {σ : Type} [RecordSource σ] [StoresRecords σ] [LawfulSource σ]

theorem default_vector {r : RawReader σ} {recs : List Bytes} {i : Nat} (h : Standing r recs i)
    {qs : List Bytes} (hq : AllLen r.recordsLayout.size qs) {count : Nat} (hc : count ≤ qs.length) :
    ∃ r', r.readIntoDefaultLayout (Interleaved.ofRecords r.recordsLayout qs) count =
        .ok (min count (recs.length - i),
          Interleaved.ofRecords r.recordsLayout (overwrite qs 0 ((recs.drop i).take count)), r') ∧
      SameFile r r' ∧ Standing r' recs (i + min count (recs.length - i)) := by
  have htake : (recs.drop i).take count = (recs.drop i).take (min count (recs.length - i)) := by
    rw [List.take_eq_take_iff]; simp
  rw [htake]
  have hin := h.inside
  generalize hn : min count (recs.length - i) = n
  unfold RawReader.readIntoDefaultLayout
  simp only [standing_remaining h, hn]
  by_cases h0 : n = 0
  · subst h0
    rw [if_pos rfl]
    exact ⟨r, by simp [overwrite, pure, Except.pure], ⟨rfl, rfl, rfl, rfl, rfl, rfl⟩, by simpa using h⟩
  · rw [if_neg h0]
    have hall := standing_allLen h
    have hnl : ((recs.drop i).take n).length = n := by simp; omega
    obtain ⟨f1, f2⟩ := LawfulSource.fill_ok (k := n) (old := ((qs.drop 0).take (n - 0)).flatten) (standing_pos h)
      (by omega) h.sizes h.stored (by omega) (by
        rw [((hq.drop 0).take _).flatten_length, h.described]; congr 1; simp; omega)
    have hg := Interleaved.getPointRangeMut_ok hq (s := 0) (e := n) (f := RecordSource.fill r.reader) (by omega) (by omega)
      ((hall.drop i).take n) (by simpa using hnl) f1
    obtain ⟨g1, g2⟩ := standing_advance h (n := n) (by omega) f2
    refine ⟨_, ?_, g2, g1⟩
    show ((InterleavedBufferMut.getPointRangeMut (Interleaved.ofRecords r.recordsLayout qs) ⟨0, n⟩ _).bind _) = _
    rw [show InterleavedBufferMut.getPointRangeMut (Interleaved.ofRecords r.recordsLayout qs) ⟨0, n⟩
      (RecordSource.fill r.reader) = _ from hg]
    show Except.ok (n, _, RawReader.mk (RecordSource.advance r.reader (n * r.recordsLayout.size)) _ _ _ _ _ _ _) = _
    rw [h.described]

theorem default_columnar {r : RawReader σ} {recs : List Bytes} {i : Nat} (h : Standing r recs i)
    {qs : List Bytes} (hq : AllLen r.recordsLayout.size qs) {count : Nat} (hc : count ≤ qs.length) :
    ∃ r', r.readIntoDefaultLayout (HashMapBuffer.ofRecords r.recordsLayout qs) count =
        .ok (min count (recs.length - i),
          HashMapBuffer.ofRecords r.recordsLayout (overwrite qs 0 ((recs.drop i).take count)), r') ∧
      SameFile r r' ∧ Standing r' recs (i + min count (recs.length - i)) := by
  have htake : (recs.drop i).take count = (recs.drop i).take (min count (recs.length - i)) := by
    rw [List.take_eq_take_iff]; simp
  rw [htake]
  have hin := h.inside
  generalize hn : min count (recs.length - i) = n
  unfold RawReader.readIntoDefaultLayout
  simp only [standing_remaining h, hn]
  by_cases h0 : n = 0
  · subst h0
    rw [if_pos rfl]
    exact ⟨r, by simp [overwrite, pure, Except.pure], ⟨rfl, rfl, rfl, rfl, rfl, rfl⟩, by simpa using h⟩
  · rw [if_neg h0]
    have hall := standing_allLen h
    have hpos := standing_pos h
    have hshort := h.short
    have hper : 0 < 2 ^ 20 / r.sizeOfPoint := Nat.div_pos (by omega) hpos
    obtain ⟨⟨s, b⟩, l1, l2, l3⟩ := forLoop_range_total
      (f := RawReader.readChunk (β := HashMapBuffer) r.sizeOfPoint (2 ^ 20 / r.sizeOfPoint)
        ((n + 2 ^ 20 / r.sizeOfPoint - 1) / (2 ^ 20 / r.sizeOfPoint)) n)
      (P := fun k s => StoresRecords.holds s.1 r.offsetToFirstPoint r.sizeOfPoint recs
          (i + min (k * (2 ^ 20 / r.sizeOfPoint)) n) ∧
        s.2 = HashMapBuffer.ofRecords r.recordsLayout
          (overwrite qs 0 ((recs.drop i).take (min (k * (2 ^ 20 / r.sizeOfPoint)) n))))
      ((n + 2 ^ 20 / r.sizeOfPoint - 1) / (2 ^ 20 / r.sizeOfPoint)) (r.reader, HashMapBuffer.ofRecords r.recordsLayout qs)
      ⟨by simpa using h.stored, by simp [overwrite]⟩ (by
        generalize 2 ^ 20 / r.sizeOfPoint = c at hper ⊢
        intro k hk ⟨s, b⟩ ⟨hs, hb⟩
        simp only at hs hb
        subst hb
        have hlt := (chunk_lt hper).1 hk
        obtain ⟨e1, e2⟩ := chunk_size hper hk
        have e3 : (k + 1) * c = k * c + c := by rw [Nat.add_mul, Nat.one_mul]
        generalize hm : min c (n - k * c) = m at e1 e2
        have hX : min (k * c) n = k * c := by omega
        have hX' : min ((k + 1) * c) n = k * c + m := by omega
        rw [hX] at hs ⊢
        unfold RawReader.readChunk
        have hbytes : (if k = (n + c - 1) / c - 1 then (n - k * c) * r.sizeOfPoint else c * r.sizeOfPoint) =
            m * r.sizeOfPoint := by
          rw [← e1]; split <;> rfl
        simp only [hbytes, hX']
        have hm2 : m * r.sizeOfPoint ≤ c * r.sizeOfPoint := Nat.mul_le_mul_right _ (by omega)
        have hsl : sliceGet (zeros (c * r.sizeOfPoint)) 0 (m * r.sizeOfPoint) =
            .ok (List.replicate (m * r.sizeOfPoint) 0) := by
          unfold sliceGet zeros
          rw [if_pos (by simpa using hm2)]
          simp [hm2]
        rw [hsl]
        obtain ⟨f1, f2⟩ := LawfulSource.fill_ok (k := m) (old := List.replicate (m * r.sizeOfPoint) 0) hpos
          e2 h.sizes hs (by omega) (by simp)
        simp only [bind, Except.bind]
        rw [f1]
        simp only
        have hlen : ((recs.drop (i + k * c)).take m).length = m := by simp; omega
        have hdl : ((recs.drop i).take (k * c)).length = k * c := by simp; omega
        have hov : AllLen r.recordsLayout.size (overwrite qs 0 ((recs.drop i).take (k * c))) := by
          unfold overwrite
          exact ((hq.take _).append ((hall.drop _).take _)).append (hq.drop _)
        have hpart : AllLen r.recordsLayout.size ((recs.drop (i + k * c)).take m) := (hall.drop _).take _
        have hstep := HoldsRecords.step_eq (β := HashMapBuffer) h.solid hov
          (.setPointRange (k * c) (k * c + m) ((recs.drop (i + k * c)).take m).flatten)
          ⟨by omega, by rw [hpart.flatten_length, hlen]; congr 1; omega⟩
        have hstep' : BorrowedMutBuffer.setPointRange
            (HashMapBuffer.ofRecords r.recordsLayout (overwrite qs 0 ((recs.drop i).take (k * c))))
            ⟨k * c, k * c + m⟩ ((recs.drop (i + k * c)).take m).flatten =
            .ok (HashMapBuffer.ofRecords r.recordsLayout (overwrite qs 0 ((recs.drop i).take (k * c + m)))) := by
          refine Eq.trans hstep ?_
          unfold Op.stepRecords
          rw [if_pos (by show k * c + m ≤ _; simp [overwrite]; omega)]
          show Except.ok _ = _
          congr 2
          show overwrite _ _ (recordsOf _ _ _) = _
          rw [recordsOf_flatten hpart (by omega)]
          have := overwrite_next qs ((recs.drop i).take (k * c)) ((recs.drop (i + k * c)).take m)
          rw [hdl] at this
          rw [this, ← List.drop_drop, ← List.take_add]
        rw [hstep']
        refine ⟨_, rfl, ?_, rfl⟩
        simpa [Nat.add_assoc] using f2)
    have hlast : min ((n + 2 ^ 20 / r.sizeOfPoint - 1) / (2 ^ 20 / r.sizeOfPoint) * (2 ^ 20 / r.sizeOfPoint)) n = n :=
      Nat.min_eq_right (chunk_last hper)
    rw [hlast] at l2 l3
    simp only at l2 l3
    obtain ⟨g1, g2⟩ := standing_advance h (n := n) (by omega) l2
    refine ⟨_, ?_, g2, g1⟩
    show (assertThat _).bind _ = _
    rw [assertThat_true (decide_eq_true (by omega))]
    show (assertThat _).bind _ = _
    rw [assertThat_true (decide_eq_true (by omega))]
    show (forLoop _ _ _).bind _ = _
    rw [l1, l3]
    rfl

/-! ## Both kinds of buffers as targets -/

/-- What reading needs of a buffer it reads into. -/
class ReadTarget (β : Type) [BorrowedMutBuffer β] [AsMemoryMut β] where
  Consistent : β → Prop
  readDefault : ∀ {σ : Type} [RecordSource σ] [StoresRecords σ] [LawfulSource σ] {r : RawReader σ}
    {recs : List Bytes} {i : Nat}, Standing r recs i → ∀ {b : β}, Consistent b → ∀ {qs : List Point},
    ShowsPoints b r.recordsLayout qs → ∀ {count : Nat}, count ≤ qs.length →
    ∃ b' r', r.readIntoDefaultLayout b count = .ok (min count (recs.length - i), b', r') ∧ SameFile r r' ∧
      Standing r' recs (i + min count (recs.length - i)) ∧ Consistent b' ∧
      ShowsPoints b' r.recordsLayout (overwrite qs 0 (((recs.drop i).take count).map (pointOf r.recordsLayout)))
  intoRange : ∀ {source : VectorBuffer} {ls lt : PointLayout}, Solid ls → Solid lt → ∀ {ps : List Point},
    SourceShows source ls ps → ∀ {calls : List MappingCall}, (∀ c ∈ calls, c.sound) →
    ∀ {conv : BufferLayoutConverter}, Built ls lt calls conv → ∀ {b : β}, Consistent b →
    ∀ {qs : List Point}, ShowsPoints b lt qs → ∀ {sr tr : Rng}, sr.start ≤ sr.stop → tr.start ≤ tr.stop →
    sr.len = tr.len → sr.stop ≤ ps.length → tr.stop ≤ qs.length →
    ∃ b', conv.convertIntoRange source sr b tr = .ok b' ∧ Consistent b' ∧
      ShowsPoints b' lt ((planOf ls calls).convert ps sr qs tr)

end

open Props in
instance vectorTarget : ReadTarget VectorBuffer where
  Consistent := VectorConsistent
  readDefault := by
    intro σ _ _ _ r recs i h b hb qs hq count hc
    have hbl : b.layout = r.recordsLayout := hq.layout_eq
    have hall := Interleaved.records_allLen hb
    have e := Interleaved.ofRecords_records hb
    rw [hbl] at hall e
    have hsh := interleaved_shows_points h.solid hall
    rw [e] at hsh
    have hqs := showsPoints_unique hq hsh
    subst hqs
    obtain ⟨r', g1, g2, g3⟩ := default_vector h hall (count := count) (by simpa using hc)
    rw [e] at g1
    have hov : AllLen r.recordsLayout.size (overwrite b.records 0 ((recs.drop i).take count)) := by
      unfold overwrite
      exact ((hall.take _).append (((standing_allLen h).drop _).take _)).append (hall.drop _)
    refine ⟨_, r', g1, g2, g3, hov.flatten_length, ?_⟩
    rw [← overwrite_map]
    exact interleaved_shows_points h.solid hov
  intoRange := fun hs ht _ h _ hc _ hb _ h1 _ h2 _ _ h3 h4 h5 h6 h7 =>
    C27_into_range_interleaved _ _ _ hs ht _ h _ hc _ hb _ h1 _ h2 _ _ h3 h4 h5 h6 h7

open Props in
instance hashMapTarget : ReadTarget HashMapBuffer where
  Consistent := HashMapConsistent
  readDefault := by
    intro σ _ _ _ r recs i h b hb qs hq count hc
    have hbl : b.layout = r.recordsLayout := hq.layout_eq
    obtain ⟨rs, hall, _, e⟩ := HashMapBuffer.exists_records (hbl ▸ h.solid) hb
    rw [hbl] at hall e
    have hsh := HashMapBuffer.shows_points h.solid hall
    rw [← e] at hsh
    have hqs := showsPoints_unique hq hsh
    subst hqs
    obtain ⟨r', g1, g2, g3⟩ := default_columnar h hall (count := count) (by simpa using hc)
    rw [← e] at g1
    have hov : AllLen r.recordsLayout.size (overwrite rs 0 ((recs.drop i).take count)) := by
      unfold overwrite
      exact ((hall.take _).append (((standing_allLen h).drop _).take _)).append (hall.drop _)
    refine ⟨_, r', g1, g2, g3, HashMapBuffer.ofRecords_inv h.solid hov, ?_⟩
    rw [← overwrite_map]
    exact HashMapBuffer.shows_points h.solid hov
  intoRange := fun hs ht _ h _ hc _ hb _ h1 _ h2 _ _ h3 h4 h5 h6 h7 =>
    C27_into_range_columnar _ _ _ hs ht _ h _ hc _ hb _ h1 _ h2 _ _ h3 h4 h5 h6 h7

/-! ## The default converter -/

theorem applyCalls_append (conv : BufferLayoutConverter) (a b : List MappingCall) :
    applyCalls conv (a ++ b) = (applyCalls conv a).bind fun conv => applyCalls conv b := by
  unfold applyCalls
  rw [List.foldlM_append]
  rfl

theorem applyCalls_singleton (conv : BufferLayoutConverter) (c : MappingCall) :
    applyCalls conv [c] = applyCall conv c := by
  unfold applyCalls
  rw [List.foldlM_cons]
  cases applyCall conv c <;> rfl

theorem calls_accepted {ls lt : PointLayout} (ht : Solid lt) : ∀ (cs calls : List MappingCall)
    (conv : BufferLayoutConverter), (∀ c ∈ calls, c.sound) → Built ls lt calls conv → (∀ c ∈ cs, c.sound) →
    ((∀ c ∈ cs, c.allowed ls lt) → ∃ conv', applyCalls conv cs = .ok conv' ∧ Built ls lt (calls ++ cs) conv') ∧
      ((¬ ∀ c ∈ cs, c.allowed ls lt) → applyCalls conv cs = .error .panic) := by
  intro cs
  induction cs with
  | nil =>
    intro calls conv _ hb _
    exact ⟨fun _ => ⟨conv, rfl, by simpa using hb⟩, fun h => absurd (by simp) h⟩
  | cons c cs ih =>
    intro calls conv hs hb hcs
    obtain ⟨h1, h2⟩ := Props.C28_call_accepted ls lt ht calls hs conv hb c (hcs c (by simp))
    have happ : applyCalls conv (c :: cs) = (applyCall conv c).bind fun conv => applyCalls conv cs := by
      rw [← applyCalls_singleton, ← applyCalls_append]; rfl
    by_cases hc : c.allowed ls lt
    · obtain ⟨conv', e1, e2⟩ := h1 hc
      obtain ⟨g1, g2⟩ := ih (calls ++ [c]) conv' (by
        intro x hx
        rcases List.mem_append.1 hx with hx | hx
        · exact hs x hx
        · rw [List.mem_singleton.1 hx]; exact hcs c (by simp)) e2 (fun x hx => hcs x (by simp [hx]))
      rw [happ, e1]
      refine ⟨fun ha => ?_, fun hn => ?_⟩
      · obtain ⟨conv'', e3, e4⟩ := g1 fun x hx => ha x (by simp [hx])
        exact ⟨conv'', e3, by simpa using e4⟩
      · refine g2 fun ha => hn fun x hx => ?_
        rcases List.mem_cons.1 hx with hx | hx
        · rw [hx]; exact hc
        · exact ha x hx
    · refine ⟨fun ha => absurd (ha c (by simp)) hc, fun _ => ?_⟩
      rw [happ, h2 hc]
      rfl

theorem bits8_eq {k mask : Nat} (w : Nat) (h : mask = 2 ^ w - 1) : bits8 k mask = bitField 1 k w := by
  funext v
  unfold bits8 bitField
  rw [h, Nat.and_two_pow_sub_one_eq_mod, Nat.shiftRight_eq_div_pow]

theorem bits16_eq {k mask : Nat} (w : Nat) (h : mask = 2 ^ w - 1) : bits16 k mask = bitField 2 k w := by
  funext v
  unfold bits16 bitField
  rw [h, Nat.and_two_pow_sub_one_eq_mod, Nat.shiftRight_eq_div_pow]

theorem mapFlag_eq (source : AttrDef) (ty : DataType) (target : PointLayout) (conv : BufferLayoutConverter)
    (name : String) (f : Bytes → Bytes) :
    mapFlag source ty target conv name f =
      applyCalls conv (customise target name fun d => [.transformed source d ty f true]) := by
  unfold mapFlag customise PointLayout.getAttributeByName
  cases target.attributes.find? (fun a => decide (a.name = name)) with
  | none => rfl
  | some m =>
    simp only
    rw [applyCalls_singleton]
    rfl

/-- The type of positions the reader accepts. -/
theorem mapPosition_eq {target : PointLayout} {t : Transforms} (conv : BufferLayoutConverter)
    (h : ∀ m ∈ target.attributes, m.name = "Position3D" → m.datatype = .vec3f64 ∨ m.datatype = .vec3f32) :
    mapPosition conv target t = applyCalls conv (customise target "Position3D" (positionCalls t)) := by
  unfold mapPosition customise PointLayout.getAttributeByName
  cases hm : target.attributes.find? (fun a => decide (a.name = position3D.name)) with
  | none => rw [show target.attributes.find? (fun a => decide (a.name = "Position3D")) = none from hm]; rfl
  | some m =>
    rw [show target.attributes.find? (fun a => decide (a.name = "Position3D")) = some m from hm]
    simp only
    have hmem := List.mem_of_find?_eq_some hm
    have hname := List.find?_some hm
    unfold positionCalls
    rcases h m hmem (of_decide_eq_true hname) with e | e
    · rw [e, show m.definition.datatype = .vec3f64 from e]
      simp only
      rw [applyCalls_singleton]
      rfl
    · rw [e, show m.definition.datatype = .vec3f32 from e]
      simp only
      rw [applyCalls_singleton]
      rfl

theorem mapPosition_err {target : PointLayout} (ht : Solid target) {t : Transforms} (conv : BufferLayoutConverter)
    {m : Member} (hm : m ∈ target.attributes) (hn : m.name = "Position3D") (h1 : m.datatype ≠ .vec3f64)
    (h2 : m.datatype ≠ .vec3f32) : mapPosition conv target t = .error .err := by
  unfold mapPosition
  have hf : target.getAttributeByName position3D.name = some m :=
    (Props.getByName_iff target ht.names _ m).2 ⟨hm, hn⟩
  rw [hf]
  simp only

theorem bitField_length (size shift width : Nat) (v : Bytes) : (bitField size shift width v).length = size := by
  unfold bitField
  rw [natLE_length]

theorem customise_mem {target : PointLayout} {name : String} {call : AttrDef → List MappingCall}
    {c : MappingCall} (h : c ∈ customise target name call) :
    ∃ m ∈ target.attributes, m.name = name ∧ c ∈ call m.definition := by
  unfold customise at h
  cases hm : target.attributes.find? (fun m => decide (m.name = name)) with
  | none => rw [hm] at h; simp at h
  | some m =>
    rw [hm] at h
    exact ⟨m, List.mem_of_find?_eq_some hm, by simpa using List.find?_some hm, h⟩

theorem lasCalls_sound (raw target : PointLayout) (t : Transforms) : ∀ c ∈ lasCalls raw target t, c.sound := by
  intro c hc
  unfold lasCalls at hc
  rcases List.mem_append.1 hc with hc | hc
  · obtain ⟨m, _, _, hc⟩ := customise_mem hc
    unfold positionCalls at hc
    split at hc
    · rw [List.mem_singleton.1 hc]
      intro v _
      simp only [worldPosition, List.length_append, writeNum_length]
      rfl
    · rw [List.mem_singleton.1 hc]
      intro v _
      simp only [worldPosition32, List.length_append, writeNum_length]
      rfl
    · simp at hc
  · split at hc
    · obtain ⟨⟨n, s, w⟩, _, hc⟩ := List.mem_flatMap.1 hc
      obtain ⟨m, _, _, hc⟩ := customise_mem hc
      rw [List.mem_singleton.1 hc]
      intro v _
      exact bitField_length _ _ _ _
    · obtain ⟨⟨n, s, w⟩, _, hc⟩ := List.mem_flatMap.1 hc
      obtain ⟨m, _, _, hc⟩ := customise_mem hc
      rw [List.mem_singleton.1 hc]
      intro v _
      exact bitField_length _ _ _ _

theorem hasAttribute_iff (l : PointLayout) (d : AttrDef) :
    l.hasAttribute d = true ↔ d ∈ l.attributes.map Member.definition := by
  unfold PointLayout.hasAttribute
  simp only [List.any_eq_true, List.mem_map, matchesDef_iff, decide_eq_true_eq]

theorem defaultConverter_eq {raw target : PointLayout} {t : Transforms}
    (h : ∀ m ∈ target.attributes, m.name = "Position3D" → m.datatype = .vec3f64 ∨ m.datatype = .vec3f32) :
    defaultConverter raw target t =
      (BufferLayoutConverter.forLayoutsWithDefault raw target).bind fun conv =>
        applyCalls conv (lasCalls raw target t) := by
  unfold defaultConverter
  congr 1
  funext conv
  rw [mapPosition_eq conv h]
  unfold lasCalls
  rw [applyCalls_append]
  show Except.bind _ _ = _
  congr 1
  funext conv
  simp only [mapFlag_eq, bits8_eq (mask := 7) 3 rfl, bits8_eq (mask := 1) 1 rfl,
    bits16_eq (mask := 15) 4 rfl, bits16_eq (mask := 3) 2 rfl, bits16_eq (mask := 1) 1 rfl]
  by_cases hb : raw.hasAttribute basicFlags = true
  · rw [if_pos hb, if_pos ((hasAttribute_iff _ _).1 hb)]
    simp only [packedBasic, List.flatMap_cons, List.flatMap_nil, List.append_nil, applyCalls_append]
    rfl
  · rw [if_neg hb, if_neg (fun e => hb ((hasAttribute_iff _ _).2 e))]
    simp only [packedExtended, List.flatMap_cons, List.flatMap_nil, List.append_nil, applyCalls_append]
    rfl

theorem defaultConverter_ok {raw target : PointLayout} {t : Transforms} (ht : Solid target)
    (h : Readable raw target t) :
    ∃ conv, defaultConverter raw target t = .ok conv ∧ Built raw target (lasCalls raw target t) conv := by
  obtain ⟨h1, h2, h3⟩ := h
  obtain ⟨conv, hc⟩ := (Props.C28_with_default raw target ht).1.2 h2
  rw [defaultConverter_eq h1, hc]
  exact (calls_accepted ht (lasCalls raw target t) [] conv (by simp) ⟨conv, .inr hc, rfl⟩
    (lasCalls_sound raw target t)).1 h3

theorem defaultConverter_fails {raw target : PointLayout} {t : Transforms} (ht : Solid target)
    (h : ¬ Readable raw target t) :
    defaultConverter raw target t = .error .panic ∨ defaultConverter raw target t = .error .err := by
  by_cases h2 : ∀ m ∈ target.attributes, named raw m.name → (defaultPlan raw m.definition).isSome
  · obtain ⟨conv, hc⟩ := (Props.C28_with_default raw target ht).1.2 h2
    by_cases h1 : ∀ m ∈ target.attributes, m.name = "Position3D" → m.datatype = .vec3f64 ∨ m.datatype = .vec3f32
    · left
      rw [defaultConverter_eq h1, hc]
      exact (calls_accepted ht (lasCalls raw target t) [] conv (by simp) ⟨conv, .inr hc, rfl⟩
        (lasCalls_sound raw target t)).2 fun h3 => h ⟨h1, h2, h3⟩
    · right
      simp only [not_forall, not_or] at h1
      obtain ⟨m, hm, hn, h4, h5⟩ := h1
      unfold defaultConverter
      rw [hc]
      show (mapPosition conv target t).bind _ = _
      rw [mapPosition_err ht conv hm hn h4 h5]
      rfl
  · left
    unfold defaultConverter
    rw [(Props.C28_with_default raw target ht).2 h2]
    rfl

/-! ## Reading records into another layout -/

theorem sameFile_refl {σ : Type} (r : RawReader σ) : SameFile r r := ⟨rfl, rfl, rfl, rfl, rfl, rfl⟩

theorem readOver_length (raw target : PointLayout) (t : Transforms) (recs : List Bytes) (qs : List Point) :
    (readOver raw target t recs qs).length = qs.length := by
  simp [readOver]

theorem readOver_nil (raw target : PointLayout) (t : Transforms) (qs : List Point) :
    readOver raw target t [] qs = qs := by
  unfold readOver
  apply List.ext_getElem?
  intro j
  rw [List.getElem?_mapIdx]
  cases qs[j]? <;> simp

theorem readOver_same (l : PointLayout) (t : Transforms) (recs : List Bytes) (qs : List Point)
    (h : recs.length ≤ qs.length) : readOver l l t recs qs = overwrite qs 0 (recs.map (pointOf l)) := by
  unfold readOver overwrite
  apply List.ext_getElem?
  intro j
  rw [List.getElem?_mapIdx, List.take_zero, List.nil_append, List.length_map, Nat.zero_add]
  by_cases hj : j < recs.length
  · rw [List.getElem?_append_left (by simpa using hj), List.getElem?_map, List.getElem?_eq_getElem hj,
      List.getElem?_eq_getElem (by omega : j < qs.length)]
    simp [readPoint]
  · rw [List.getElem?_append_right (by simpa using hj), List.getElem?_eq_none (by omega : recs.length ≤ j)]
    simp only [List.length_map, List.getElem?_drop]
    rw [show recs.length + (j - recs.length) = j by omega]
    cases qs[j]? <;> rfl

/-- Converting one more chunk. -/
theorem readOver_convert {raw target : PointLayout} {t : Transforms} (hne : target ≠ raw) {src : List Bytes}
    {qs : List Point} {X m : Nat} {ps : List Point} (hsrc : X + m ≤ src.length)
    (hps : ∀ j < m, ps[j]? = (src[X + j]?).map (pointOf raw)) :
    (lasPlan raw target t).convert ps ⟨0, m⟩ (readOver raw target t (src.take X) qs) ⟨X, X + m⟩ =
      readOver raw target t (src.take (X + m)) qs := by
  unfold Plan.convert readOver
  apply List.ext_getElem?
  intro j
  rw [List.getElem?_mapIdx, List.getElem?_mapIdx, List.getElem?_mapIdx]
  cases hq : qs[j]? with
  | none => rfl
  | some q =>
    simp only [Option.map_some]
    congr 1
    by_cases h1 : X ≤ j ∧ j < X + m
    · rw [if_pos h1, List.getElem?_take_of_lt h1.2, List.getElem?_eq_none (l := src.take X) (by simp; omega)]
      have := hps (j - X) (by omega)
      rw [show X + (j - X) = j by omega, List.getElem?_eq_getElem (by omega : j < src.length)] at this
      rw [List.getElem?_eq_getElem (by omega : j < src.length), Nat.zero_add, this]
      simp [readPoint, hne]
    · rw [if_neg h1]
      by_cases h2 : j < X
      · rw [List.getElem?_take_of_lt h2, List.getElem?_take_of_lt (by omega)]
      · rw [List.getElem?_eq_none (l := src.take X) (by simp; omega),
          List.getElem?_eq_none (l := src.take (X + m)) (by simp; omega)]

section
variable {σ : Type} [RecordSource σ] [StoresRecords σ] [LawfulSource σ]
variable {β : Type} [BorrowedMutBuffer β] [AsMemoryMut β] [ReadTarget β]

/-- Reading `m` records into a scratch buffer and converting them. -/
theorem read_and_convert {r : RawReader σ} {recs : List Bytes} {i : Nat} (h : Standing r recs i)
    {target : PointLayout} (ht : Solid target) (hne : target ≠ r.recordsLayout) {conv : BufferLayoutConverter}
    (hconv : Built r.recordsLayout target (lasCalls r.recordsLayout target r.transforms) conv)
    {ss : List Bytes} (hss : AllLen r.recordsLayout.size ss) {X m n : Nat} {r₁ : RawReader σ} (hX : X + m ≤ n)
    (hn : i + n ≤ recs.length) (hsm : m ≤ ss.length)
    (h₁ : Standing r₁ recs (i + X)) (hsame : SameFile r r₁) {b : β} (hb : ReadTarget.Consistent b)
    {qs : List Point} (hnq : n ≤ qs.length)
    (hq : ShowsPoints b target (readOver r.recordsLayout target r.transforms (((recs.drop i).take n).take X) qs)) :
    ∃ r₂ ss' b', r₁.readIntoDefaultLayout (Interleaved.ofRecords r.recordsLayout ss) m =
        .ok (m, Interleaved.ofRecords r.recordsLayout ss', r₂) ∧
      conv.convertIntoRange (Interleaved.ofRecords r.recordsLayout ss' : VectorBuffer) ⟨0, m⟩ b ⟨X, X + m⟩ = .ok b' ∧
      AllLen r.recordsLayout.size ss' ∧ ss'.length = ss.length ∧ SameFile r r₂ ∧ Standing r₂ recs (i + (X + m)) ∧
      ReadTarget.Consistent b' ∧
      ShowsPoints b' target
        (readOver r.recordsLayout target r.transforms (((recs.drop i).take n).take (X + m)) qs) := by
  obtain ⟨e1, e2, e3, e4, e5, e6⟩ := hsame
  rw [← e4] at hss
  obtain ⟨r₂, g1, g2, g3⟩ := default_vector h₁ hss (count := m) hsm
  have hmin : min m (recs.length - (i + X)) = m := by omega
  rw [hmin] at g1 g3
  rw [e4] at g1 hss
  have hall := standing_allLen h
  have hpl : ((recs.drop (i + X)).take m).length = m := by simp; omega
  have hov : AllLen r.recordsLayout.size (overwrite ss 0 ((recs.drop (i + X)).take m)) := by
    unfold overwrite
    exact ((hss.take _).append ((hall.drop _).take _)).append (hss.drop _)
  have hovl : (overwrite ss 0 ((recs.drop (i + X)).take m)).length = ss.length := by
    simp only [overwrite, List.length_append, List.length_take, List.length_drop]
    omega
  have hsr := interleaved_shows_records h.solid hov
  have hsource : SourceShows (Interleaved.ofRecords r.recordsLayout (overwrite ss 0 ((recs.drop (i + X)).take m)) : VectorBuffer)
      r.recordsLayout ((overwrite ss 0 ((recs.drop (i + X)).take m)).map (pointOf r.recordsLayout)) :=
    ⟨hsr.points, _, hsr, rfl⟩
  obtain ⟨b', c1, c2, c3⟩ := ReadTarget.intoRange h.solid ht hsource (lasCalls_sound _ _ _) hconv hb hq
    (sr := ⟨0, m⟩) (tr := ⟨X, X + m⟩) (Nat.zero_le _) (by simp) (by simp [Rng.len]) (by
      simp only [List.length_map, hovl]; exact hsm) (by
      rw [readOver_length]; show X + m ≤ _; omega)
  refine ⟨r₂, _, b', g1, c1, hov, hovl, ?_, by rw [← Nat.add_assoc]; exact g3, c2, ?_⟩
  · obtain ⟨f1, f2, f3, f4, f5, f6⟩ := g2
    exact ⟨f1.trans e1, f2.trans e2, f3.trans e3, f4.trans e4, f5.trans e5, f6.trans e6⟩
  · have := readOver_convert (raw := r.recordsLayout) (target := target) (t := r.transforms) hne
      (src := (recs.drop i).take n) (qs := qs) (X := X) (m := m)
      (ps := (overwrite ss 0 ((recs.drop (i + X)).take m)).map (pointOf r.recordsLayout))
      (by simp; omega) (by
        intro j hj
        rw [List.getElem?_map, List.getElem?_take_of_lt (by omega), List.getElem?_drop]
        congr 1
        unfold overwrite
        rw [List.take_zero, List.nil_append, List.getElem?_append_left (by omega), List.getElem?_take_of_lt hj,
          List.getElem?_drop, Nat.add_assoc])
    rw [← this]
    exact c3

theorem custom_chunked {r : RawReader σ} {recs : List Bytes} {i : Nat} (h : Standing r recs i)
    {target : PointLayout} (ht : Solid target) (hne : target ≠ r.recordsLayout)
    (hr : Readable r.recordsLayout target r.transforms) {b : β} (hb : ReadTarget.Consistent b)
    {qs : List Point} (hq : ShowsPoints b target qs) {count : Nat} (hc : count ≤ qs.length) :
    ReadCorrectly r recs i target qs count ReadTarget.Consistent (r.readIntoCustomLayout b count) := by
  unfold ReadCorrectly
  have htake : (recs.drop i).take count = (recs.drop i).take (min count (recs.length - i)) := by
    rw [List.take_eq_take_iff]; simp
  rw [htake]
  have hin := h.inside
  generalize hn : min count (recs.length - i) = n
  unfold RawReader.readIntoCustomLayout
  simp only [standing_remaining h, hn]
  by_cases h0 : n = 0
  · subst h0
    rw [if_pos rfl]
    exact ⟨b, r, rfl, sameFile_refl r, by simpa using h, hb, by simpa [readOver_nil] using hq⟩
  · rw [if_neg h0]
    have hpos : 0 < r.recordsLayout.size := by rw [h.described]; exact standing_pos h
    have hper : 0 < 2 ^ 20 / r.recordsLayout.size := Nat.div_pos (by have := h.short; rw [h.described]; omega) hpos
    have hbl : BorrowedBuffer.layout b = target := hq.layout_eq
    obtain ⟨conv, hcv, hbuilt⟩ := defaultConverter_ok ht hr
    show ∃ b' r', (assertThat _).bind _ = _ ∧ _
    rw [assertThat_true (decide_eq_true (by omega))]
    show ∃ b' r', (assertThat _).bind _ = _ ∧ _
    rw [assertThat_true (decide_eq_true (by omega))]
    show ∃ b' r', (defaultConverter _ _ _).bind _ = _ ∧ _
    rw [hbl, hcv]
    generalize 2 ^ 20 / r.recordsLayout.size = c at hper ⊢
    generalize hS : (if (n + c - 1) / c > 1 then c else n) = S
    have hSpos : 0 < S := by rw [← hS]; split <;> omega
    have hN : (n + c - 1) / c = (n + S - 1) / S := by
      by_cases h1 : (n + c - 1) / c > 1
      · rw [if_pos h1] at hS; rw [hS]
      · rw [if_neg h1] at hS
        subst hS
        have h2 : 0 < (n + c - 1) / c := (chunk_lt hper).2 (by omega)
        have h3 : 0 < (n + n - 1) / n := (chunk_lt (by omega)).2 (by omega)
        have h4 : ¬ 1 < (n + n - 1) / n := by rw [chunk_lt (by omega)]; omega
        omega
    rw [hN]
    have hscr : (OwningBuffer.resize (MakeBufferFromLayout.newFromLayout r.recordsLayout) S : VectorBuffer) =
        Interleaved.ofRecords r.recordsLayout (List.replicate S (List.replicate r.recordsLayout.size (0 : Byte))) := by
      have := resize_records (β := VectorBuffer) h.solid (AllLen.nil (sz := r.recordsLayout.size)) S
      rw [show resized ([] : List Bytes) S (List.replicate r.recordsLayout.size 0) =
        List.replicate S (List.replicate r.recordsLayout.size 0) by simp [resized]] at this
      exact this
    rw [hscr]
    obtain ⟨⟨r', _, b'⟩, l1, ss, _, _, _, l2, l3, l4, l5⟩ := forLoop_range_total
      (f := RawReader.convertChunk (σ := σ) (β := β) conv S ((n + S - 1) / S) n)
      (P := fun k s => ∃ ss, s.2.1 = Interleaved.ofRecords r.recordsLayout ss ∧ AllLen r.recordsLayout.size ss ∧
        ss.length = S ∧ SameFile r s.1 ∧ Standing s.1 recs (i + min (k * S) n) ∧ ReadTarget.Consistent s.2.2 ∧
        ShowsPoints s.2.2 target (readOver r.recordsLayout target r.transforms
          (((recs.drop i).take n).take (min (k * S) n)) qs))
      ((n + S - 1) / S) (r, Interleaved.ofRecords r.recordsLayout
        (List.replicate S (List.replicate r.recordsLayout.size (0 : Byte))), b)
      ⟨_, rfl, AllLen.replicate (by simp) S, by simp, sameFile_refl r, by simpa using h, hb,
        by simpa [readOver_nil] using hq⟩ (by
        intro k hk ⟨r₁, scr, b₁⟩ ⟨ss, h1, h2, h3, h4, h5, h6, h7⟩
        simp only at h1 h4 h5 h6 h7
        subst h1
        have hlt := (chunk_lt hSpos).1 hk
        obtain ⟨e1, e2⟩ := chunk_size hSpos hk
        have e3 : (k + 1) * S = k * S + S := by rw [Nat.add_mul, Nat.one_mul]
        generalize hm : min S (n - k * S) = m at e1 e2
        have hX : min (k * S) n = k * S := by omega
        have hX' : min ((k + 1) * S) n = k * S + m := by omega
        rw [hX] at h5 h7
        rw [hX']
        obtain ⟨r₂, ss', b₂, c1, c2, c3, c4, c5, c6, c7, c8⟩ := read_and_convert h ht hne hbuilt h2 (X := k * S)
          (m := m) (n := n) (by omega) (by omega) (by omega) h5 h4 h6 (by omega) h7
        refine ⟨(r₂, Interleaved.ofRecords r.recordsLayout ss', b₂), ?_, ss', rfl, c3, c4.trans h3, c5, c6, c7, c8⟩
        unfold RawReader.convertChunk
        have hpts : (if k = (n + S - 1) / S - 1 then n - ((n + S - 1) / S - 1) * S else S) = m := by
          rw [← e1]
          split
          · next he => rw [← he]
          · rfl
        simp only [hpts]
        show (RawReader.readIntoDefaultLayout r₁ _ m).bind _ = _
        rw [c1]
        show (BufferLayoutConverter.convertIntoRange conv _ _ _ _).bind _ = _
        rw [c2]
        rfl)
    rw [Nat.min_eq_right (chunk_last hSpos)] at l3 l5
    refine ⟨b', r', ?_, l2, l3, l4, by simpa [List.take_take] using l5⟩
    show (forLoop _ _ _).bind _ = _
    rw [l1]
    rfl

theorem custom_at_once {r : RawReader σ} {recs : List Bytes} {i : Nat} (h : Standing r recs i)
    {target : PointLayout} (ht : Solid target) (hne : target ≠ r.recordsLayout)
    (hr : Readable r.recordsLayout target r.transforms) {b : β} (hb : ReadTarget.Consistent b)
    {qs : List Point} (hq : ShowsPoints b target qs) {count : Nat} (hc : count ≤ qs.length) :
    ReadCorrectly r recs i target qs count ReadTarget.Consistent (r.readIntoCustomLayoutAtOnce b count) := by
  unfold ReadCorrectly
  have htake : (recs.drop i).take count = (recs.drop i).take (min count (recs.length - i)) := by
    rw [List.take_eq_take_iff]; simp
  rw [htake]
  have hin := h.inside
  generalize hn : min count (recs.length - i) = n
  unfold RawReader.readIntoCustomLayoutAtOnce
  simp only [standing_remaining h, hn]
  by_cases h0 : n = 0
  · subst h0
    rw [if_pos rfl]
    exact ⟨b, r, rfl, sameFile_refl r, by simpa using h, hb, by simpa [readOver_nil] using hq⟩
  · rw [if_neg h0]
    have hbl : BorrowedBuffer.layout b = target := hq.layout_eq
    obtain ⟨conv, hcv, hbuilt⟩ := defaultConverter_ok ht hr
    have hscr : (OwningBuffer.resize (MakeBufferFromLayout.newFromLayout r.recordsLayout) n : VectorBuffer) =
        Interleaved.ofRecords r.recordsLayout (List.replicate n (List.replicate r.recordsLayout.size (0 : Byte))) := by
      have := resize_records (β := VectorBuffer) h.solid (AllLen.nil (sz := r.recordsLayout.size)) n
      rw [show resized ([] : List Bytes) n (List.replicate r.recordsLayout.size 0) =
        List.replicate n (List.replicate r.recordsLayout.size 0) by simp [resized]] at this
      exact this
    rw [hscr]
    obtain ⟨r₂, ss', b₂, c1, c2, c3, c4, c5, c6, c7, c8⟩ := read_and_convert h ht hne hbuilt
      (AllLen.replicate (sz := r.recordsLayout.size) (z := List.replicate r.recordsLayout.size (0 : Byte)) (by simp) n)
      (X := 0) (m := n) (n := n) (by omega) (by omega) (by simp) (by simpa using h) (sameFile_refl r) hb
      (qs := qs) (by omega) (by simpa [readOver_nil] using hq)
    rw [Nat.zero_add] at c2 c6 c8
    refine ⟨b₂, r₂, ?_, c5, c6, c7, by simpa [List.take_take] using c8⟩
    show (RawReader.readIntoDefaultLayout r _ n).bind _ = _
    rw [c1]
    show (defaultConverter _ _ _).bind _ = _
    rw [hbl, hcv]
    show (BufferLayoutConverter.convertInto conv _ b).bind _ = _
    unfold BufferLayoutConverter.convertInto
    have hlen : BorrowedBuffer.len (Interleaved.ofRecords r.recordsLayout ss' : VectorBuffer) = n := by
      show ss'.length = n
      simpa using c4
    rw [hlen, c2]
    rfl

end

end Las
end Pasture
