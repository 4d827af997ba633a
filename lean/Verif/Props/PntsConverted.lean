import Verif.Spec.PntsConverted
import Verif.Props.Pnts
import Verif.Props.TwoSteps

/-!
# C114: writing points to a `.pnts` file, or converting them to the types of the file first
-/

namespace Pasture.Props

open Spec Spec.Pnts Tiles3d Las PntsWriter PntsReader BorrowedBuffer

section
variable {l target : PointLayout}

/-- The converted points have the same attributes for the file. -/
theorem stored_again (h : TileLayoutOf l target) : storedAttributes target = storedAttributes l := by
  have mem : ∀ d : AttrDef, (∃ m ∈ target.attributes, m.definition = d) ↔ ∃ s ∈ storedAttributes l, s.2 = d := by
    intro d
    have := h.attributes.mem_iff (a := d)
    simpa only [List.mem_map] using this
  unfold storedAttributes
  apply List.filter_congr
  intro s hs
  rw [decide_eq_decide]
  constructor
  · rintro ⟨m, hm, hn⟩
    obtain ⟨s', hs', he⟩ := (mem m.definition).1 ⟨m, hm, rfl⟩
    have hn' := of_decide_eq_true (List.mem_filter.1 hs').2
    rw [he] at hn'
    rw [← hn]
    exact hn'
  · intro hn
    obtain ⟨m, hm, he⟩ := (mem s.2).2 ⟨s, List.mem_filter.2 ⟨hs, decide_eq_true hn⟩, rfl⟩
    exact ⟨m, hm, by rw [← he]; rfl⟩

/-- They can be converted to the types of the file. -/
theorem tile_storable (h : TileLayoutOf l target) : Storable target := by
  intro s hs
  rw [stored_again h] at hs
  obtain ⟨t, ht, he⟩ := List.mem_map.1 (h.attributes.mem_iff.2 (List.mem_map_of_mem (f := Prod.snd) hs))
  rw [← he, defaultPlan_of_name h.solid ht rfl, conversion_to_same]
  rfl

/-- What is stored of a converted point is what is stored of the point. -/
theorem stored_converted (h : TileLayoutOf l target) (p : Point) :
    storedPoint target ((defaultPlan l).apply p (zeroPoint target)) = storedPoint l p := by
  unfold storedPoint
  rw [stored_again h]
  conv_lhs => unfold Plan.apply
  conv_rhs => unfold Plan.apply
  rw [List.map_map, List.map_map]
  apply List.map_congr_left
  intro s hs
  obtain ⟨t, ht, he⟩ := List.mem_map.1 (h.attributes.mem_iff.2 (List.mem_map_of_mem (f := Prod.snd) hs))
  have hz : (zeroPoint target).get t.definition = some (List.replicate t.size 0) :=
    Las.lookup_map_def (g := fun m => List.replicate m.size 0) ht h.solid.names
  have hg := apply_get (defaultPlan l) p (zeroPoint target) t.definition
  rw [hz, Option.map_some] at hg
  have hp : defaultPlan target t.definition = some ⟨t.definition, id⟩ := by
    rw [defaultPlan_of_name h.solid ht rfl, conversion_to_same]
    rfl
  dsimp only [Function.comp]
  rw [← he, hp]
  dsimp only
  unfold Plan.apply at hg
  rw [hg]
  rfl

end

section
variable {J : JsonText} {order : Converters → Converters}

/-- The buffers as calls. -/
theorem as_calls {β : Type} [BorrowedBuffer β] {l : PointLayout} (hl : Solid l) {bs : List β} {pss : List (List Point)}
    (h : List.Forall₂ (fun b ps => ShowsPoints b l ps) bs pss) :
    ∃ calls : List WriterCall, (∀ b ∈ writesOf calls, b.layout = l) ∧ beforeFlush calls = pss.flatten ∧
      ∀ w, writeAllPnts J order w bs = runPnts J order w (calls ++ [.flush]) := by
  induction h with
  | nil =>
    refine ⟨[], by simp [writesOf], rfl, fun w => ?_⟩
    show w.flush J = (w.flush J).bind _
    cases w.flush J <;> rfl
  | @cons b ps bs pss hb _ ih =>
    obtain ⟨calls, h1, h2, h3⟩ := ih
    refine ⟨.write ⟨β, b, l, ps, hb, hl⟩ :: calls, ?_, ?_, fun w => ?_⟩
    · intro b' hb'
      rcases List.mem_cons.1 (show b' ∈ _ :: writesOf calls from hb') with rfl | hb'
      · rfl
      · exact h1 b' hb'
    · show ps ++ beforeFlush calls = _
      rw [h2]
      rfl
    · show (w.write order b).bind (fun w => writeAllPnts J order w bs) =
        (w.write order b).bind fun w => runPnts J order w (calls ++ [.flush])
      congr 1
      funext w
      exact h3 w

variable {σ : Type} [BorrowedBuffer σ] [AsMemory σ] {l target : PointLayout}

/-- All buffers converted. -/
theorem all_converted (hl : Solid l) (h : TileLayoutOf l target) (hs : Storable l) {bs : List σ} {pss : List (List Point)}
    (hb : List.Forall₂ (fun b ps => SourceShows b l ps) bs pss) :
    (∃ cs, bs.mapM (atOnce VectorBuffer l target) = .ok cs ∧ List.Forall₂ (fun c ps => ShowsPoints c target
      (ps.map fun p => (defaultPlan l).apply p (zeroPoint target))) cs pss) ∧
    ∃ cs, bs.mapM (atOnce HashMapBuffer l target) = .ok cs ∧ List.Forall₂ (fun c ps => ShowsPoints c target
      (ps.map fun p => (defaultPlan l).apply p (zeroPoint target))) cs pss := by
  have hc : ∀ t ∈ target.attributes, named l t.name → (defaultPlan l t.definition).isSome := by
    intro t ht _
    obtain ⟨s, hsm, he⟩ := List.mem_map.1 (h.attributes.mem_iff.1 (List.mem_map_of_mem (f := Member.definition) ht))
    rw [← he]
    exact hs s hsm
  induction hb with
  | nil => exact ⟨⟨[], rfl, .nil⟩, [], rfl, .nil⟩
  | @cons b ps bs pss hb _ ih =>
    obtain ⟨⟨c, h1, h2⟩, c', h1', h2'⟩ := at_once b l target hl h.solid ps hb hc
    obtain ⟨⟨cs, h3, h4⟩, cs', h3', h4'⟩ := ih
    refine ⟨⟨c :: cs, ?_, .cons h2.points h4⟩, c' :: cs', ?_, .cons h2'.points h4'⟩
    · rw [List.mapM_cons, h1, h3]; rfl
    · rw [List.mapM_cons, h1', h3']; rfl

/-- Two runs with corresponding points. -/
theorem same_tile {β γ : Type} [BorrowedBuffer β] [BorrowedBuffer γ] (ho : ∀ c, (order c).Perm c) (hl : Solid l)
    (h : TileLayoutOf l target) {center : Option (P3 F64)} {w v w' : PntsWriter} (hw : openPnts l center = .ok w)
    (hv : openPnts target center = .ok v) {bs : List β} {cs : List γ} {pss : List (List Point)}
    (hb : List.Forall₂ (fun b ps => ShowsPoints b l ps) bs pss)
    (hc : List.Forall₂ (fun c ps => ShowsPoints c target (ps.map fun p => (defaultPlan l).apply p (zeroPoint target))) cs pss)
    (hw' : writeAllPnts J order w bs = .ok w') :
    IsCopy J w'.writer.data pss.flatten.length center center (writeAllPnts J order v cs) := by
  obtain ⟨calls, a1, a2, a3⟩ := as_calls (J := J) (order := order) hl hb
  have hc' : List.Forall₂ (fun c ps => ShowsPoints c target ps) cs
      (pss.map fun ps => ps.map fun p => (defaultPlan l).apply p (zeroPoint target)) := by
    rw [List.forall₂_map_right_iff]
    exact hc
  obtain ⟨calls', b1, b2, b3⟩ := as_calls (J := J) (order := order) h.solid hc'
  rw [a3] at hw'
  rw [b3]
  obtain ⟨parts, entries, _, _, c3, c4, c5⟩ := C54 J ho hl hw calls a1
  obtain ⟨parts', entries', _, d2, d3, d4, d5⟩ := C54 J ho h.solid hv calls' b1
  have e : (beforeFlush calls').map (storedPoint target) = (beforeFlush calls).map (storedPoint l) := by
    rw [a2, b2, ← List.map_flatten, List.map_map]
    exact List.map_congr_left fun p _ => stored_converted h p
  have hlen : (beforeFlush calls').length = pss.flatten.length := by
    rw [b2, ← List.map_flatten, List.length_map]
  have f1 : fileSize J entries parts < 2 ^ 32 := by
    by_contra hx
    rw [c5 (by omega)] at hw'
    cases hw'
  obtain ⟨u, g1, g2, _⟩ := c4 f1
  rw [g1] at hw'
  cases hw'
  rw [e, stored_again h] at d3
  rw [a2] at g2
  rw [hlen] at d2 d4
  exact ⟨parts, parts', entries', g2, c3.trans d3.symm, d2, d4, d5⟩

/-- **C114**: if a writer can be made for a layout, then points in it can be converted to the layout of the types of the
    file, a writer can be made for that, too, and the file of the second writer has the same content as that of the first
    one. -/
theorem C114 (ho : ∀ c, (order c).Perm c) (hl : Solid l) (h : TileLayoutOf l target) {center : Option (P3 F64)}
    {w : PntsWriter} (hw : openPnts l center = .ok w) {bs : List σ} {pss : List (List Point)}
    (hb : List.Forall₂ (fun b ps => SourceShows b l ps) bs pss) :
    ∃ v, openPnts target center = .ok v ∧
      (∃ cs, bs.mapM (atOnce VectorBuffer l target) = .ok cs ∧ ∀ w', writeAllPnts J order w bs = .ok w' →
        IsCopy J w'.writer.data pss.flatten.length center center (writeAllPnts J order v cs)) ∧
      ∃ cs, bs.mapM (atOnce HashMapBuffer l target) = .ok cs ∧ ∀ w', writeAllPnts J order w bs = .ok w' →
        IsCopy J w'.writer.data pss.flatten.length center center (writeAllPnts J order v cs) := by
  obtain ⟨v, hv⟩ := (C54_opens h.solid center).2 (tile_storable h)
  obtain ⟨⟨cs, h1, h2⟩, cs', h1', h2'⟩ := all_converted hl h ((C54_opens hl center).1 ⟨w, hw⟩) hb
  have hb' : List.Forall₂ (fun b ps => ShowsPoints b l ps) bs pss := hb.imp fun _ _ h => h.points
  exact ⟨v, hv, ⟨cs, h1, fun w' e => same_tile ho hl h hw hv hb' h2 e⟩,
    cs', h1', fun w' e => same_tile ho hl h hw hv hb' h2' e⟩

/-- **C114**, read back: readers of both files deliver the same points, whatever is called on them. -/
theorem C114_read {f : F64 → F64} (hJ : Faithful J f) (ho : ∀ c, (order c).Perm c) (hl : Solid l) (h : TileLayoutOf l target)
    (hne : storedAttributes l ≠ []) {center : Option (P3 F64)} (hf : ∀ c, center = some c → FiniteCenter c)
    {w v w' v' : PntsWriter} (hw : openPnts l center = .ok w) (hv : openPnts target center = .ok v) {bs : List σ}
    {pss : List (List Point)} (hb : List.Forall₂ (fun b ps => SourceShows b l ps) bs pss) {cs : List VectorBuffer}
    (hcs : bs.mapM (atOnce VectorBuffer l target) = .ok cs) (hw' : writeAllPnts J order w bs = .ok w')
    (hv' : writeAllPnts J order v cs = .ok v') :
    ∃ r r', PntsReader.fromRead J w'.writer.data = .ok r ∧ PntsReader.fromRead J v'.writer.data = .ok r' ∧
      r'.layout.attributes.map Member.definition = r.layout.attributes.map Member.definition ∧
      ∀ (mode : PositionsMode) (calls : List ReaderCall), seeksInRange pss.flatten.length 0 calls →
        readsSomething pss.flatten.length 0 calls →
        ∃ (as as' : List VectorBuffer) (qss : List (List Point)), runCalls VectorBuffer (r.setMode mode) calls = .ok as ∧
          runCalls VectorBuffer (r'.setMode mode) calls = .ok as' ∧
          List.Forall₂ (fun a qs => ShowsPoints a r.layout qs) as qss ∧
          List.Forall₂ (fun a qs => ShowsPoints a r'.layout qs) as' qss := by
  obtain ⟨⟨cs₀, h1, h2⟩, _⟩ := all_converted hl h ((C54_opens hl center).1 ⟨w, hw⟩) hb
  rw [h1] at hcs
  cases hcs
  obtain ⟨calls, a1, a2, a3⟩ := as_calls (J := J) (order := order) hl (hb.imp fun _ _ h => h.points)
  have hc' : List.Forall₂ (fun c ps => ShowsPoints c target ps) cs
      (pss.map fun ps => ps.map fun p => (defaultPlan l).apply p (zeroPoint target)) := by
    rw [List.forall₂_map_right_iff]
    exact h2
  obtain ⟨calls', b1, b2, b3⟩ := as_calls (J := J) (order := order) h.solid hc'
  rw [a3] at hw'
  rw [b3] at hv'
  have e : (beforeFlush calls').map (storedPoint target) = (beforeFlush calls).map (storedPoint l) := by
    rw [a2, b2, ← List.map_flatten, List.map_map]
    exact List.map_congr_left fun p _ => stored_converted h p
  have hlen : (beforeFlush calls').length = pss.flatten.length := by
    rw [b2, ← List.map_flatten, List.length_map]
  obtain ⟨r, r1, _, r3, r4⟩ := C55_partial hJ ho hl hne hf hw calls a1 hw'
  obtain ⟨r', s1, _, s3, s4⟩ := C55_partial hJ ho h.solid (by rw [stored_again h]; exact hne) hf hv calls' b1 hv'
  refine ⟨r, r', r1, s1, by rw [r3, s3, stored_again h], fun mode rc hs hr => ?_⟩
  obtain ⟨⟨as, t1, t2⟩, _⟩ := r4 mode rc (by rw [a2]; exact hs) (by rw [a2]; exact hr)
  obtain ⟨⟨as', u1, u2⟩, _⟩ := s4 mode rc (by rw [hlen]; exact hs) (by rw [hlen]; exact hr)
  rw [e] at u2
  refine ⟨as, as', (partsRead ((beforeFlush calls).map (storedPoint l)) 0 rc).map fun part =>
    part.map (placed mode (center.map (textCenter f))), t1, u1, ?_, ?_⟩
  · rw [List.forall₂_map_right_iff]
    exact t2.imp fun _ _ x => x.2
  · rw [List.forall₂_map_right_iff]
    exact u2.imp fun _ _ x => x.2

end

/-! ## The theorems apply -/

/-- The types of the file, for points of `surveyLayout`, colors first. -/
def colorsFirst : PointLayout := ⟨[⟨⟨"ColorRGB", .vec3u8⟩, 0⟩, ⟨⟨"Position3D", .vec3f32⟩, 4⟩], 16, 4⟩

theorem colorsFirst_tile : TileLayoutOf surveyLayout colorsFirst := by
  refine ⟨by decide +kernel, ?_⟩
  have hst : storedAttributes surveyLayout = [("POSITION", ⟨"Position3D", .vec3f32⟩), ("RGB", ⟨"ColorRGB", .vec3u8⟩)] := by
    decide +kernel
  rw [hst]
  exact List.Perm.swap ..

/-- A buffer of two points and one of one point. -/
def surveys : List VectorBuffer :=
  [Interleaved.ofRecords surveyLayout [List.replicate 32 7#8, List.replicate 32 64#8],
    Interleaved.ofRecords surveyLayout [List.replicate 32 9#8]]

theorem surveys_show : List.Forall₂ (fun b ps => SourceShows b surveyLayout ps) surveys
    [[List.replicate 32 7#8, List.replicate 32 64#8].map (pointOf surveyLayout),
      [List.replicate 32 9#8].map (pointOf surveyLayout)] := by
  have key : ∀ rs : List Bytes, AllLen surveyLayout.size rs →
      SourceShows (Interleaved.ofRecords surveyLayout rs : VectorBuffer) surveyLayout (rs.map (pointOf surveyLayout)) := by
    intro rs hrs
    have := interleaved_shows_records survey_solid (rs := rs) hrs
    exact ⟨this.points, _, this, rfl⟩
  refine .cons (key _ ?_) (.cons (key _ ?_) .nil)
  · intro x hx
    simp only [List.mem_cons, List.not_mem_nil, or_false] at hx
    rcases hx with rfl | rfl <;> rfl
  · intro x hx
    simp only [List.mem_cons, List.not_mem_nil, or_false] at hx
    rw [hx]
    rfl

/-- Both files can be written, and they are not equal: the attributes come in another order. -/
theorem surveys_written : ∃ w v cs w' v', openPnts surveyLayout none = .ok w ∧ openPnts colorsFirst none = .ok v ∧
    surveys.mapM (atOnce VectorBuffer surveyLayout colorsFirst) = .ok cs ∧
    writeAllPnts Codec.codec List.reverse w surveys = .ok w' ∧ writeAllPnts Codec.codec List.reverse v cs = .ok v' ∧
    w'.writer.data ≠ v'.writer.data := by
  have h : (do
      let w ← openPnts surveyLayout none
      let v ← openPnts colorsFirst none
      let cs ← surveys.mapM (atOnce VectorBuffer surveyLayout colorsFirst)
      let w' ← writeAllPnts Codec.codec List.reverse w surveys
      let v' ← writeAllPnts Codec.codec List.reverse v cs
      pure (decide (w'.writer.data ≠ v'.writer.data)) : Out Bool) = .ok true := by decide +kernel
  cases h1 : openPnts surveyLayout none with
  | error e => rw [h1] at h; cases h
  | ok w =>
  cases h2 : openPnts colorsFirst none with
  | error e => rw [h1, h2] at h; cases h
  | ok v =>
  cases h3 : surveys.mapM (atOnce VectorBuffer surveyLayout colorsFirst) with
  | error e => rw [h1, h2, h3] at h; cases h
  | ok cs =>
  cases h4 : writeAllPnts Codec.codec List.reverse w surveys with
  | error e =>
    rw [h1, h2, h3] at h
    change ((writeAllPnts Codec.codec List.reverse w surveys).bind _ : Out Bool) = _ at h
    rw [h4] at h
    cases h
  | ok w' =>
  rw [h1, h2, h3] at h
  change ((writeAllPnts Codec.codec List.reverse w surveys).bind _ : Out Bool) = _ at h
  rw [h4] at h
  change ((writeAllPnts Codec.codec List.reverse v cs).bind _ : Out Bool) = _ at h
  cases h5 : writeAllPnts Codec.codec List.reverse v cs with
  | error e => rw [h5] at h; cases h
  | ok v' =>
    rw [h5] at h
    refine ⟨w, v, cs, w', v', rfl, rfl, rfl, h4, h5, of_decide_eq_true ?_⟩
    exact Except.ok.inj h

example : ∃ (w' v' : PntsWriter) (parts parts' : List Part), w'.writer.data ≠ v'.writer.data ∧
    IsPnts Codec.codec w'.writer.data 3 none parts ∧ IsPnts Codec.codec v'.writer.data 3 none parts' ∧
    (parts.map fun p => (p.semantic, p.data)).Perm (parts'.map fun p => (p.semantic, p.data)) := by
  obtain ⟨w, v, cs, w', v', h1, h2, h3, h4, h5, h6⟩ := surveys_written
  obtain ⟨v₀, g1, ⟨cs₀, g2, g3⟩, _⟩ := C114 (J := Codec.codec) (order := List.reverse) (fun c => List.reverse_perm c)
    survey_solid colorsFirst_tile h1 surveys_show
  rw [h2] at g1
  cases g1
  rw [h3] at g2
  cases g2
  obtain ⟨parts, parts', entries, c1, c2, _, c4, c5⟩ := g3 w' h4
  rw [h5] at c4 c5
  obtain ⟨u, d1, d2, _⟩ := c4 (by
    by_contra hx
    have := c5 (by omega)
    cases this)
  cases d1
  exact ⟨w', v', parts, parts', h6, c1, d2, c2⟩

end Pasture.Props
