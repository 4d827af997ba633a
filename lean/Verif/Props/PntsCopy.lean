import Verif.Props.PntsConverted

/-!
# C115: copies of `.pnts` files
-/

namespace Pasture.Props

open Spec Spec.Pnts Tiles3d Las PntsWriter PntsReader BorrowedBuffer

/-- Reads stay in range. -/
theorem reads_in_range (n : Nat) (chunks : List Nat) : ∀ i, seeksInRange n i (chunks.map ReaderCall.read) := by
  induction chunks with
  | nil => intro i; trivial
  | cons k chunks ih => intro i; exact ih _

/-- `C38_pieces` for points. -/
theorem pieces_of_any {α : Type} (recs : List α) : ∀ (ns : List Nat) (i : Nat),
    (partsRead recs i (ns.map .read)).flatten = (recs.drop i).take ns.sum := by
  intro ns
  induction ns with
  | nil => intro i; simp [partsRead]
  | cons n ns ih =>
    intro i
    simp only [List.map_cons, partsRead, List.flatten_cons, ih, List.sum_cons]
    rw [List.take_add, List.drop_drop]
    congr 1
    by_cases h : n ≤ recs.length - i
    · rw [Nat.min_eq_left h]
    · rw [Nat.min_eq_right (by omega), List.drop_eq_nil_of_le (by omega), List.drop_eq_nil_of_le (by omega)]

theorem placed_same {mode : PositionsMode} {center : Option (P3 F64)} (h : mode = .relativeToCenter ∨ center = none)
    (p : Point) : placed mode center p = p := by
  rcases h with rfl | rfl
  · rfl
  · cases mode <;> rfl

section
variable {J : JsonText} {f : F64 → F64}

/-- What is stored is a point of the layout of the reader. -/
theorem stored_as_converted {l rl : PointLayout}
    (h : rl.attributes.map Member.definition = (storedAttributes l).map Prod.snd) (p : Point) :
    storedPoint l p = (defaultPlan l).apply p (zeroPoint rl) := by
  unfold storedPoint
  congr 1
  have e1 : ((storedAttributes l).map fun s => (s.2, List.replicate s.2.size (0 : Byte))) =
      ((storedAttributes l).map Prod.snd).map fun d => (d, List.replicate d.size 0) := by
    rw [List.map_map]
    rfl
  rw [e1, ← h, List.map_map]
  rfl

/-- A copy made from buffers that show what was read. -/
theorem copied {order order' : Converters → Converters} (ho : ∀ c, (order c).Perm c) (ho' : ∀ c, (order' c).Perm c)
    {l rl : PointLayout} (hl : Solid l) (hrl : Solid rl)
    (hd : rl.attributes.map Member.definition = (storedAttributes l).map Prod.snd)
    {center center' : Option (P3 F64)} {w w' : PntsWriter} (hw : openPnts l center = .ok w) (writes : List WriterCall)
    (hb : ∀ b ∈ writesOf writes, b.layout = l) (hrun : runPnts J order w (writes ++ [.flush]) = .ok w')
    {β : Type} [BorrowedBuffer β] {bs : List β} {pss : List (List Point)}
    (hbs : List.Forall₂ (fun b ps => ShowsPoints b rl ps) bs pss)
    (hps : pss.flatten = (beforeFlush writes).map (storedPoint l)) :
    ∃ v, openPnts rl center' = .ok v ∧
      IsCopy J w'.writer.data (beforeFlush writes).length center center' (writeAllPnts J order' v bs) := by
  have ht : TileLayoutOf l rl := ⟨hrl, by rw [hd]⟩
  obtain ⟨v, hv⟩ := (C54_opens hrl center').2 (tile_storable ht)
  refine ⟨v, hv, ?_⟩
  obtain ⟨calls, b1, b2, b3⟩ := as_calls (J := J) (order := order') hrl hbs
  rw [b3]
  obtain ⟨parts, entries, _, _, c3, c4, c5⟩ := C54 J ho hl hw writes hb
  obtain ⟨parts', entries', _, d2, d3, d4, d5⟩ := C54 J ho' hrl hv calls b1
  have f1 : fileSize J entries parts < 2 ^ 32 := by
    by_contra hx
    rw [c5 (by omega)] at hrun
    cases hrun
  obtain ⟨u, g1, g2, _⟩ := c4 f1
  rw [g1] at hrun
  cases hrun
  have e : (beforeFlush calls).map (storedPoint rl) = (beforeFlush writes).map (storedPoint l) := by
    rw [b2, hps, List.map_map]
    apply List.map_congr_left
    intro p _
    show storedPoint rl (storedPoint l p) = storedPoint l p
    conv_lhs => rw [stored_as_converted hd p]
    exact stored_converted ht p
  have hlen : (beforeFlush calls).length = (beforeFlush writes).length := by rw [b2, hps, List.length_map]
  rw [e, stored_again ht] at d3
  rw [hlen] at d2 d4
  exact ⟨parts, parts', entries', g2, c3.trans d3.symm, d2, d4, d5⟩

/-- **C115**: a `.pnts` file is opened, all points are read, in chunks of any size, relative to the center of the file if it
    has one, and written to another file with that center. Then the copy has as many points as the original and the
    same data for each attribute. -/
theorem C115 (hJ : Faithful J f) {order order' : Converters → Converters} (ho : ∀ c, (order c).Perm c)
    (ho' : ∀ c, (order' c).Perm c) {l : PointLayout} (hl : Solid l) (hne : storedAttributes l ≠ [])
    {center : Option (P3 F64)} (hc : ∀ c, center = some c → FiniteCenter c) {w w' : PntsWriter}
    (hw : openPnts l center = .ok w) (writes : List WriterCall) (hb : ∀ b ∈ writesOf writes, b.layout = l)
    (hrun : runPnts J order w (writes ++ [.flush]) = .ok w') (mode : PositionsMode)
    (hm : mode = .relativeToCenter ∨ center = none) (chunks : List Nat)
    (hchunks : readsSomething (beforeFlush writes).length 0 (chunks.map .read))
    (hall : (beforeFlush writes).length ≤ chunks.sum) :
    ∃ r, PntsReader.fromRead J w'.writer.data = .ok r ∧ r.metadata.rtcCenter = center.map (textCenter f) ∧
      ∃ v, openPnts r.layout r.metadata.rtcCenter = .ok v ∧
        (∃ bs, runCalls VectorBuffer (r.setMode mode) (chunks.map .read) = .ok bs ∧
          IsCopy J w'.writer.data (beforeFlush writes).length center r.metadata.rtcCenter (writeAllPnts J order' v bs)) ∧
        ∃ bs, runCalls HashMapBuffer (r.setMode mode) (chunks.map .read) = .ok bs ∧
          IsCopy J w'.writer.data (beforeFlush writes).length center r.metadata.rtcCenter (writeAllPnts J order' v bs) := by
  obtain ⟨r, r1, r2, _, r4, _⟩ := (pnts_open_generic hJ ho hl hne hw writes hb hrun).1 hc
  obtain ⟨r₀, s1, _, _, s4⟩ := C55_partial hJ ho hl hne hc hw writes hb hrun
  rw [r1] at s1
  cases s1
  obtain ⟨⟨as, t1, t2⟩, as', u1, u2⟩ := s4 mode (chunks.map .read) (reads_in_range _ _ _) hchunks
  have hsame : ∀ part : List Point, part.map (placed mode (center.map (textCenter f))) = part := by
    intro part
    rw [List.map_congr_left (g := id) fun p _ => placed_same (hm.imp_right fun h => by rw [h]; rfl) p, List.map_id]
  have hps : (partsRead ((beforeFlush writes).map (storedPoint l)) 0 (chunks.map .read)).flatten =
      (beforeFlush writes).map (storedPoint l) := by
    rw [pieces_of_any, List.drop_zero, List.take_of_length_le (by rw [List.length_map]; exact hall)]
  simp only [hsame] at t2 u2
  obtain ⟨v, hv, a⟩ := copied ho ho' hl r2.solid r4 (center' := r.metadata.rtcCenter) hw writes hb hrun
    (t2.imp fun _ _ x => x.2) hps
  obtain ⟨v₂, hv₂, b⟩ := copied ho ho' hl r2.solid r4 (center' := r.metadata.rtcCenter) hw writes hb hrun
    (u2.imp fun _ _ x => x.2) hps
  rw [hv] at hv₂
  cases hv₂
  exact ⟨r, r1, r2.center, v, hv, ⟨as, t1, a⟩, as', u1, b⟩

end

/-! ## The theorem applies -/

/-- Three points are written, read in two pieces and copied. -/
example : ∃ (w' : PntsWriter) (copy : Out PntsWriter), IsCopy Codec.codec w'.writer.data 3 none none copy := by
  obtain ⟨w, _, _, w', _, h1, _, _, h2, _, _⟩ := surveys_written
  obtain ⟨calls, a1, a2, a3⟩ := as_calls (J := Codec.codec) (order := List.reverse) survey_solid
    (surveys_show.imp fun _ _ h => h.points)
  rw [a3] at h2
  have hn : (beforeFlush calls).length = 3 := by rw [a2]; rfl
  obtain ⟨r, _, b2, v, _, ⟨bs, _, b5⟩, _⟩ := C115 (order' := id) Codec.codec_faithful (fun c => List.reverse_perm c)
    (fun c => List.Perm.refl c) survey_solid (by decide +kernel) (center := none) (by simp) h1 calls a1 h2 .absolute (.inr rfl)
    [2, 5] (by rw [hn]; simp [readsSomething]) (by rw [hn]; decide)
  rw [hn, b2] at b5
  exact ⟨w', _, b5⟩

end Pasture.Props
