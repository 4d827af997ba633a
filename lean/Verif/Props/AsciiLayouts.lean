import Verif.Spec.AsciiLayouts
import Verif.Props.Ascii
import Verif.Props.Collect
import Verif.Props.RoundTrip
import Verif.Lemmas.TwoSteps

/-!
# C110: point clouds from ASCII files of the same format
-/

namespace Pasture.Props

open Spec Spec.Ascii Pasture.Ascii BorrowedBuffer Las

/-- The layout of a reader: the attributes of the format in the order of the hash set. -/
theorem reader_layout {format : List Char} (hv : ValidFormat format) :
    ∃ ds : List AttrDef, ds.Nodup ∧ (∀ d, d ∈ ds ↔ Described format d) ∧
      ∀ (order : List AttrDef → List AttrDef) (_ : ∀ ds, (order ds).Perm ds) (text delimiter : List Char),
        ∃ r, RawAsciiReader.fromRead order text format delimiter = .ok r ∧
          PointLayout.fromAttributes (order ds) = .ok (PointReader.defaultLayout r) ∧
          (PointReader.defaultLayout r).attributes.map Member.definition = order ds ∧
          (ds ≠ [] → Solid (PointReader.defaultLayout r)) := by
  obtain ⟨ts, h1, h2⟩ := getParseLayout_ok hv
  obtain ⟨ds, a1, a2, a3⟩ := attributes_ok ts
  refine ⟨ds.dedup, List.nodup_dedup ds, fun d => ?_, ?_⟩
  · rw [List.mem_dedup, described_iff h2, a3]
  · intro order ho text delimiter
    have hp := ho ds.dedup
    have hsub : ∀ d ∈ order ds.dedup, d ∈ attributeTable := fun d hd => a2 d (List.mem_dedup.1 (hp.mem_iff.1 hd))
    have hnd : (order ds.dedup).Nodup := hp.nodup_iff.2 (List.nodup_dedup ds)
    have hlen : (order ds.dedup).length ≤ 13 := (hnd.subperm hsub).length_le
    have hnames : ((order ds.dedup).map AttrDef.name).Nodup := by
      apply List.Nodup.map_on _ hnd
      intro x hx y hy hxy
      exact List.inj_on_of_nodup_map (f := AttrDef.name) (l := attributeTable) (by decide) (hsub x hx) (hsub y hy) hxy
    have htab : ∀ d ∈ attributeTable, (∃ k ≤ 3, d.datatype.minAlignment = 2 ^ k) ∧ d.size ≤ 24 ∧ 0 < d.size := by
      decide
    obtain ⟨l, e1, e2⟩ := fromAttributes_fits (order ds.dedup) hnames (fun d hd => (htab d (hsub d hd)).1)
      (fun d hd => (htab d (hsub d hd)).2.1) (by omega)
    refine ⟨⟨text, delimiter, l, ts⟩, ?_, e1, e2, fun hne => ?_⟩
    · unfold RawAsciiReader.fromRead
      simp only [bind, Except.bind, h1]
      unfold pointLayout
      rw [a1]
      simp only [bind, Except.bind, e1]
      rfl
    · refine solid_of_fromAttributes ?_ (fun d hd => (htab d (hsub d hd)).2.2) e1
      intro hc
      rw [hc] at hp
      exact hne hp.symm.eq_nil

/-- **C110 in part**: if the format describes one attribute only, all readers have the same layout, so that all they read
    fits together. (For other formats see `C110_violated` and `C110_joined_partial`.) -/
theorem C110_layout_partial {format : List Char} (hv : ValidFormat format)
    (hone : ∀ d d', Described format d → Described format d' → d = d')
    (order₁ order₂ : List AttrDef → List AttrDef) (ho₁ : ∀ ds, (order₁ ds).Perm ds) (ho₂ : ∀ ds, (order₂ ds).Perm ds)
    (text₁ text₂ delimiter : List Char) :
    ∃ r₁ r₂, RawAsciiReader.fromRead order₁ text₁ format delimiter = .ok r₁ ∧
      RawAsciiReader.fromRead order₂ text₂ format delimiter = .ok r₂ ∧
      PointReader.defaultLayout r₁ = PointReader.defaultLayout r₂ := by
  obtain ⟨ds, h1, h2, h3⟩ := reader_layout hv
  obtain ⟨r₁, a1, a2, _⟩ := h3 order₁ ho₁ text₁ delimiter
  obtain ⟨r₂, b1, b2, _⟩ := h3 order₂ ho₂ text₂ delimiter
  refine ⟨r₁, r₂, a1, b1, ?_⟩
  have e : order₁ ds = order₂ ds := by
    match ds, h1, h2 with
    | [], _, _ => rw [(ho₁ []).eq_nil, (ho₂ []).eq_nil]
    | [d], _, _ => rw [List.perm_singleton.1 (ho₁ [d]), List.perm_singleton.1 (ho₂ [d])]
    | d :: d' :: ds, h1, h2 =>
      have := hone d d' ((h2 d).1 (by simp)) ((h2 d').1 (by simp))
      subst this
      simp at h1
  rw [e, b2] at a2
  exact (Except.ok.inj a2).symm

/-- **C110 is violated** for every format that describes two attributes: the layout depends on the order in which a hash
    set happens to list them, so two readers of the same format can have different layouts, and appending a buffer of the
    one to a buffer of the other panics. -/
theorem C110_violated {format : List Char} (hv : ValidFormat format) {d d' : AttrDef} (hd : Described format d)
    (hd' : Described format d') (hne : d ≠ d') :
    ∃ order₁ order₂ : List AttrDef → List AttrDef, (∀ ds, (order₁ ds).Perm ds) ∧ (∀ ds, (order₂ ds).Perm ds) ∧
      ∀ text₁ text₂ delimiter : List Char, ∃ r₁ r₂,
        RawAsciiReader.fromRead order₁ text₁ format delimiter = .ok r₁ ∧
        RawAsciiReader.fromRead order₂ text₂ format delimiter = .ok r₂ ∧
        ∀ a b : VectorBuffer, layout a = PointReader.defaultLayout r₁ → layout b = PointReader.defaultLayout r₂ →
          append a b = .error .panic := by
  obtain ⟨ds, h1, h2, h3⟩ := reader_layout hv
  refine ⟨id, List.reverse, fun _ => .refl _, List.reverse_perm, fun text₁ text₂ delimiter => ?_⟩
  obtain ⟨r₁, a1, _, a2, _⟩ := h3 id (fun _ => .refl _) text₁ delimiter
  obtain ⟨r₂, b1, _, b2, _⟩ := h3 List.reverse List.reverse_perm text₂ delimiter
  refine ⟨r₁, r₂, a1, b1, fun a b ha hb => ?_⟩
  have hl : layout a ≠ layout b := by
    intro e
    rw [ha, hb] at e
    rw [e, b2] at a2
    have a2 : ds.reverse = ds := a2
    have m := (h2 d).2 hd
    have m' := (h2 d').2 hd'
    match ds, h1, a2, m, m' with
    | [], _, _, m, _ => cases m
    | [x], _, _, m, m' => exact hne ((List.mem_singleton.1 m).trans (List.mem_singleton.1 m').symm)
    | x :: y :: ds, h1, a2, _, _ =>
      have g := congrArg List.head? a2
      rw [List.head?_reverse, List.getLast?_cons_cons, List.head?_cons] at g
      exact (List.nodup_cons.1 h1).1 (List.mem_of_getLast? g)
  unfold append
  rw [assertThat_false (decide_eq_false hl)]
  rfl

/-- The points of a converted buffer, if both layouts have the same attributes. -/
theorem same_values {l₁ l₂ : PointLayout} (s₁ : Solid l₁) (s₂ : Solid l₂)
    (h : (l₁.attributes.map Member.definition).Perm (l₂.attributes.map Member.definition)) (r : Bytes) :
    SameValues (pointOf l₁ r) ((defaultPlan l₁).apply (pointOf l₁ r) (zeroPoint l₂)) := by
  intro d
  rw [apply_get]
  by_cases hd : d ∈ l₁.attributes.map Member.definition
  · obtain ⟨m, hm, rfl⟩ := List.mem_map.1 hd
    obtain ⟨t, ht, e⟩ := List.mem_map.1 (h.mem_iff.1 hd)
    have hget : Point.get (pointOf l₁ r) m.definition = some (window r m.offset m.size) :=
      Las.lookup_map_def (g := fun m => window r m.offset m.size) hm s₁.names
    have hz : Point.get (zeroPoint l₂) t.definition = some (List.replicate t.size 0) :=
      Las.lookup_map_def (g := fun m => List.replicate m.size (0 : Byte)) ht s₂.names
    have hname : t.name = m.name := congrArg AttrDef.name e
    have htype : m.datatype = t.datatype := (congrArg AttrDef.datatype e).symm
    have p := defaultPlan_of_name s₁ hm hname
    rw [htype, conversion_to_same] at p
    rw [← e, hz, p, e]
    simp only [Option.map_some, hget, id]
  · have h1 : Point.get (pointOf l₁ r) d = none := by
      unfold Point.get pointOf
      rw [List.lookup_eq_none_iff]
      rintro ⟨x, v⟩ hx
      obtain ⟨m, hm, e⟩ := List.mem_map.1 hx
      cases e
      simp only [bne_iff_ne, ne_eq]
      rintro rfl
      exact hd (List.mem_map_of_mem hm)
    have h2 : Point.get (zeroPoint l₂) d = none := by
      unfold Point.get zeroPoint
      rw [List.lookup_eq_none_iff]
      rintro ⟨x, v⟩ hx
      obtain ⟨m, hm, e⟩ := List.mem_map.1 hx
      cases e
      simp only [bne_iff_ne, ne_eq]
      rintro rfl
      exact hd (h.mem_iff.2 (List.mem_map_of_mem hm))
    rw [h1, h2]
    rfl

/-- **C110 in part**, what a user can do instead: convert one buffer to the layout of the other one. That always works and
    keeps all values; the result can be appended. -/
theorem C110_joined_partial {format : List Char} (hv : ValidFormat format) (hd : ∃ d, Described format d)
    (order₁ order₂ : List AttrDef → List AttrDef) (ho₁ : ∀ ds, (order₁ ds).Perm ds) (ho₂ : ∀ ds, (order₂ ds).Perm ds)
    (text₁ text₂ delimiter : List Char) :
    ∃ r₁ r₂, RawAsciiReader.fromRead order₁ text₁ format delimiter = .ok r₁ ∧
      RawAsciiReader.fromRead order₂ text₂ format delimiter = .ok r₂ ∧
      ∀ (a b : VectorBuffer) (ps qs : List Point), VectorConsistent a → VectorConsistent b →
        ShowsPoints a (PointReader.defaultLayout r₁) ps → ShowsPoints b (PointReader.defaultLayout r₂) qs →
        ∃ c b' j qs', BufferLayoutConverter.forLayouts (layout b) (layout a) = .ok c ∧ c.convert VectorBuffer b = .ok b' ∧
          append a b' = .ok j ∧ ShowsPoints j (layout a) (ps ++ qs') ∧ List.Forall₂ SameValues qs qs' := by
  obtain ⟨ds, h1, h2, h3⟩ := reader_layout hv
  obtain ⟨r₁, a1, _, a2, s1⟩ := h3 order₁ ho₁ text₁ delimiter
  obtain ⟨r₂, b1, _, b2, s2⟩ := h3 order₂ ho₂ text₂ delimiter
  have hne : ds ≠ [] := by
    obtain ⟨d, hd⟩ := hd
    rintro rfl
    cases (h2 d).2 hd
  have s1 := s1 hne
  have s2 := s2 hne
  refine ⟨r₁, r₂, a1, b1, fun a b ps qs ha hb hps hqs => ?_⟩
  generalize PointReader.defaultLayout r₁ = l₁ at *
  generalize PointReader.defaultLayout r₂ = l₂ at *
  have ea : layout a = l₁ := hps.layout_eq
  have eb : layout b = l₂ := hqs.layout_eq
  have hperm : (l₂.attributes.map Member.definition).Perm (l₁.attributes.map Member.definition) := by
    rw [a2, b2]
    exact (ho₂ ds).trans (ho₁ ds).symm
  have hsome : ∀ m ∈ l₁.attributes, (defaultPlan l₂ m.definition).isSome := by
    intro m hm
    obtain ⟨t, ht, e⟩ := List.mem_map.1 (hperm.mem_iff.2 (List.mem_map_of_mem hm))
    rw [defaultPlan_of_name s2 ht (congrArg AttrDef.name e).symm,
      show t.datatype = m.datatype from congrArg AttrDef.datatype e, conversion_to_same]
    rfl
  obtain ⟨c, hc⟩ := (C28_for_layouts l₂ l₁ s1).1.2 hsome
  obtain ⟨b', e1, _, e3⟩ := C27_convert_interleaved b l₂ l₁ s2 s1 qs (vector_middle s2 hb hqs) [] (by simp) c ⟨c, .inl hc, rfl⟩
  have ea' : a.layout = l₁ := ea
  obtain ⟨j, g1, g2, _⟩ := C13_append_to_vector a b' (ea' ▸ s1) ha ps _ (ea' ▸ hps) (ea' ▸ e3)
  refine ⟨c, b', j, _, by rw [ea, eb]; exact hc, e1, g1, g2, ?_⟩
  rw [List.forall₂_map_right_iff, List.forall₂_same]
  intro p hp
  obtain ⟨i, hi⟩ := List.mem_iff_getElem?.1 hp
  obtain ⟨r, _, _, rfl⟩ := hqs.getPoint_ok i p (zeros l₂.size) hi (by simp [zeros])
  rw [ea']
  exact same_values s2 s1 hperm r

/-- The hypotheses are met: the format "xi" describes positions and intensities; two readers, whose hash sets list them in
    different orders, put them in different places. -/
example : ValidFormat "xi".toList ∧ Described "xi".toList Las.position3D ∧ Described "xi".toList Las.intensity ∧
    Las.position3D ≠ Las.intensity ∧
    (RawAsciiReader.fromRead id sampleText "xi".toList ",".toList).map
      (fun r => (PointReader.defaultLayout r).attributes.map Member.offset) = .ok [0, 24] ∧
    (RawAsciiReader.fromRead List.reverse sampleText "xi".toList ",".toList).map
      (fun r => (PointReader.defaultLayout r).attributes.map Member.offset) = .ok [0, 8] :=
  ⟨by unfold ValidFormat; decide, ⟨0, _, rfl, rfl⟩, ⟨1, _, rfl, rfl⟩, by decide, by decide +kernel, by decide +kernel⟩

/-- A format for one attribute. -/
example : ValidFormat "xyz".toList ∧ ∀ d d', Described "xyz".toList d → Described "xyz".toList d' → d = d' := by
  refine ⟨by unfold ValidFormat; decide, ?_⟩
  have : ∀ d, Described "xyz".toList d → d = Las.position3D := by
    rintro d ⟨i, c, h1, rfl⟩
    match i, h1 with
    | 0, h1 => cases h1; rfl
    | 1, h1 => cases h1; rfl
    | 2, h1 => cases h1; rfl
    | i + 3, h1 => cases h1
  intro d d' h h'
  rw [this d h, this d' h']

end Pasture.Props
