import Verif.Lemmas.Serde
import Verif.Lemmas.Arith
import Verif.Lemmas.Layout
import Verif.Lemmas.Malformed
import Verif.Model.VectorBuffer

/-!
# C95: layouts and bounding boxes in `serde`
-/

namespace Pasture.Props

open Spec Serde Tiles3d

/-! ## Reading: exactly the documents that describe something -/

theorem orErr_ok {α : Type} {x : Option α} {a : α} : orErr x = .ok a ↔ x = some a := by
  cases x with
  | none => simp [orErr]
  | some b => simp [orErr]

theorem natOfJson_iff (v : Json) (n : Nat) : natOfJson v = .ok n ↔ v = .int n := by
  rw [natOfJson, orErr_ok]
  cases v with
  | int z =>
    simp only [Json.asU64, Json.int.injEq]
    split
    · rw [Option.some.injEq]
      omega
    · simp only [reduceCtorEq, false_iff]
      omega
  | _ => simp [Json.asU64]

theorem textOfJson_iff (v : Json) (s : String) : textOfJson v = .ok s ↔ v = .string s := by
  cases v <;> simp [textOfJson]

theorem uuidOfJson_iff (v : Json) (n : Nat) :
    uuidOfJson v = .ok n ↔ ∃ s : String, v = .string s ∧ IsUuidText s.toList n := by
  cases v with
  | string s => simp [uuidOfJson, orErr_ok, uuidOfChars_iff]
  | _ => simp [uuidOfJson]

theorem fields2_iff (v : Json) (a b : String) (x y : Json) :
    jsonFields [a, b] v = .ok [x, y] ↔ IsStruct v [(a, x), (b, y)] := by
  cases v with
  | object entries =>
    simp only [jsonFields, List.mapM_cons, List.mapM_nil, IsStruct, Json.object.injEq, reduceCtorEq, or_false]
    cases ha : entries.lookup a <;> cases hb : entries.lookup b <;>
      simp [orErr, ha, hb, bind, Except.bind, pure, Except.pure]
  | array xs =>
    simp only [jsonFields, IsStruct, reduceCtorEq, false_and, exists_false, false_or, Json.array.injEq, List.map_cons,
      List.map_nil]
    split
    · simp
    · rename_i h
      simp only [reduceCtorEq, false_iff]
      rintro rfl
      exact h rfl
  | _ => simp [jsonFields, IsStruct]

theorem fields3_iff (v : Json) (a b c : String) (x y z : Json) :
    jsonFields [a, b, c] v = .ok [x, y, z] ↔ IsStruct v [(a, x), (b, y), (c, z)] := by
  cases v with
  | object entries =>
    simp only [jsonFields, List.mapM_cons, List.mapM_nil, IsStruct, Json.object.injEq, reduceCtorEq, or_false]
    cases ha : entries.lookup a <;> cases hb : entries.lookup b <;> cases hc : entries.lookup c <;>
      simp [orErr, ha, hb, hc, bind, Except.bind, pure, Except.pure]
  | array xs =>
    simp only [jsonFields, IsStruct, reduceCtorEq, false_and, exists_false, false_or, Json.array.injEq, List.map_cons,
      List.map_nil]
    split
    · simp
    · rename_i h
      simp only [reduceCtorEq, false_iff]
      rintro rfl
      exact h rfl
  | _ => simp [jsonFields, IsStruct]

theorem unitVariant_iff (s : String) (t : DataType) : unitVariant s = some t ↔ (s, t) ∈ typeNames := by
  constructor
  · intro h
    unfold unitVariant at h
    split at h <;> first | (injection h with h; subst h; decide) | cases h
  · intro h
    simp only [typeNames, List.mem_cons, Prod.mk.injEq, List.not_mem_nil, or_false] at h
    rcases h with ⟨rfl, rfl⟩ | ⟨rfl, rfl⟩ | ⟨rfl, rfl⟩ | ⟨rfl, rfl⟩ | ⟨rfl, rfl⟩ | ⟨rfl, rfl⟩ | ⟨rfl, rfl⟩ |
      ⟨rfl, rfl⟩ | ⟨rfl, rfl⟩ | ⟨rfl, rfl⟩ | ⟨rfl, rfl⟩ | ⟨rfl, rfl⟩ | ⟨rfl, rfl⟩ | ⟨rfl, rfl⟩ | ⟨rfl, rfl⟩ |
      ⟨rfl, rfl⟩ <;> rfl

theorem bind_iff {α γ : Type} {x : Out α} {g : α → Out γ} {c : γ} :
    (x >>= g) = .ok c ↔ ∃ a, x = .ok a ∧ g a = .ok c := by
  cases x with
  | error e => simp [bind, Except.bind]
  | ok a => simp [bind, Except.bind]

theorem mapM_forall₂ {α γ : Type} (g : α → Out γ) :
    ∀ (xs : List α) (ys : List γ), xs.mapM g = .ok ys ↔ List.Forall₂ (fun x y => g x = .ok y) xs ys
  | [], ys => by
    simp only [List.mapM_nil, pure, Except.pure, Except.ok.injEq, List.forall₂_nil_left_iff]
    exact eq_comm
  | x :: xs, ys => by
    rw [List.mapM_cons, bind_iff, List.forall₂_cons_left_iff]
    constructor
    · rintro ⟨y, hy, h⟩
      obtain ⟨zs, hzs, h⟩ := bind_iff.1 h
      injection h with h
      exact ⟨y, zs, hy, (mapM_forall₂ g xs zs).1 hzs, h.symm⟩
    · rintro ⟨y, zs, hy, hzs, rfl⟩
      exact ⟨y, hy, bind_iff.2 ⟨zs, (mapM_forall₂ g xs zs).2 hzs, rfl⟩⟩

theorem customOfJson_iff (v : Json) (t : DataType) :
    customOfJson v = .ok t ↔ ∃ (size align uuid : Nat) (entries : List (String × Json)) (s : String),
      v = .object entries ∧ entries.lookup "size" = some (.int size) ∧
      entries.lookup "min_alignment" = some (.int align) ∧ entries.lookup "name" = some (.string s) ∧
      IsUuidText s.toList uuid ∧ t = .custom size align uuid := by
  cases v with
  | object entries =>
    simp only [customOfJson]
    constructor
    · intro h
      obtain ⟨v1, h1, h⟩ := bind_iff.1 h
      obtain ⟨size, hs, h⟩ := bind_iff.1 h
      obtain ⟨v2, h2, h⟩ := bind_iff.1 h
      obtain ⟨align, ha, h⟩ := bind_iff.1 h
      obtain ⟨v3, h3, h⟩ := bind_iff.1 h
      obtain ⟨uuid, hu, hr⟩ := bind_iff.1 h
      injection hr with hr
      obtain ⟨s, rfl, hu'⟩ := (uuidOfJson_iff _ _).1 hu
      rw [(natOfJson_iff _ _).1 hs] at h1
      rw [(natOfJson_iff _ _).1 ha] at h2
      exact ⟨size, align, uuid, entries, s, rfl, orErr_ok.1 h1, orErr_ok.1 h2, orErr_ok.1 h3, hu', hr.symm⟩
    · rintro ⟨size, align, uuid, e, s, he, h1, h2, h3, hu, rfl⟩
      injection he with he
      subst he
      exact bind_iff.2 ⟨_, orErr_ok.2 h1, bind_iff.2 ⟨_, (natOfJson_iff _ _).2 rfl, bind_iff.2 ⟨_, orErr_ok.2 h2,
        bind_iff.2 ⟨_, (natOfJson_iff _ _).2 rfl, bind_iff.2 ⟨_, orErr_ok.2 h3,
          bind_iff.2 ⟨_, (uuidOfJson_iff _ _).2 ⟨s, rfl, hu⟩, rfl⟩⟩⟩⟩⟩⟩
  | _ => simp [customOfJson]

/-- A data type is read from exactly the documents that describe one. -/
theorem dataTypeOfJson_iff (v : Json) (t : DataType) : dataTypeOfJson v = .ok t ↔ DescribesType v t := by
  have hb : ∀ t, ("ByteArray", t) ∉ typeNames := by
    intro t h
    have := (unitVariant_iff _ _).2 h
    cases this
  have hc : ∀ t, ("Custom", t) ∉ typeNames := by
    intro t h
    have := (unitVariant_iff _ _).2 h
    cases this
  constructor
  · intro h
    unfold dataTypeOfJson at h
    split at h
    · rename_i s
      exact Or.inl ⟨s, (unitVariant_iff _ _).1 (orErr_ok.1 h), Or.inl rfl⟩
    · rename_i k v
      split at h
      · rename_i hk
        subst hk
        obtain ⟨n, hn, h⟩ := bind_iff.1 h
        injection h with h
        rw [(natOfJson_iff _ _).1 hn]
        exact Or.inr (Or.inl ⟨n, rfl, h.symm⟩)
      · split at h
        · rename_i hk
          subst hk
          obtain ⟨size, align, uuid, e, s, rfl, h'⟩ := (customOfJson_iff _ _).1 h
          exact Or.inr (Or.inr ⟨size, align, uuid, e, s, rfl, h'⟩)
        · obtain ⟨t', ht, h⟩ := bind_iff.1 h
          split at h
          · injection h with h
            subst h
            exact Or.inl ⟨k, (unitVariant_iff _ _).1 (orErr_ok.1 ht), Or.inr rfl⟩
          · cases h
    · cases h
  · rintro (⟨name, hn, rfl | rfl⟩ | ⟨n, rfl, rfl⟩ | ⟨size, align, uuid, e, s, rfl, h⟩)
    · exact orErr_ok.2 ((unitVariant_iff _ _).2 hn)
    · have h1 : name ≠ "ByteArray" := by
        rintro rfl
        exact hb _ hn
      have h2 : name ≠ "Custom" := by
        rintro rfl
        exact hc _ hn
      simp only [dataTypeOfJson, if_neg h1, if_neg h2]
      exact bind_iff.2 ⟨t, orErr_ok.2 ((unitVariant_iff _ _).2 hn), rfl⟩
    · simp only [dataTypeOfJson, if_pos]
      exact bind_iff.2 ⟨n, (natOfJson_iff _ _).2 rfl, rfl⟩
    · simp only [dataTypeOfJson, if_pos]
      rw [if_neg (by decide)]
      exact (customOfJson_iff _ _).2 ⟨size, align, uuid, e, s, rfl, h⟩

theorem fields_length {names : List String} {v : Json} {xs : List Json} (h : jsonFields names v = .ok xs) :
    xs.length = names.length := by
  unfold jsonFields at h
  split at h
  · exact ((mapM_forall₂ _ _ _).1 h).length_eq.symm
  · split at h
    · injection h with h
      subst h
      assumption
    · cases h
  · cases h

/-- An attribute is read from exactly the documents that describe one. -/
theorem definitionOfJson_iff (v : Json) (d : AttrDef) : definitionOfJson v = .ok d ↔ DescribesDefinition v d := by
  constructor
  · intro h
    obtain ⟨xs, hx, h⟩ := bind_iff.1 h
    have hl := fields_length hx
    match xs, hl, hx, h with
    | [x, y], _, hx, h =>
      obtain ⟨name, hn, h⟩ := bind_iff.1 h
      obtain ⟨t, ht, h⟩ := bind_iff.1 h
      injection h with h
      subst h
      rw [(textOfJson_iff _ _).1 hn] at hx
      exact ⟨y, (fields2_iff _ _ _ _ _).1 hx, (dataTypeOfJson_iff _ _).1 ht⟩
  · rintro ⟨t, hs, ht⟩
    exact bind_iff.2 ⟨_, (fields2_iff _ _ _ _ _).2 hs, bind_iff.2 ⟨_, (textOfJson_iff _ _).2 rfl,
      bind_iff.2 ⟨_, (dataTypeOfJson_iff _ _).2 ht, rfl⟩⟩⟩

theorem memberOfJson_iff (v : Json) (m : StoredMember) : memberOfJson v = .ok m ↔ DescribesMember v m := by
  constructor
  · intro h
    obtain ⟨xs, hx, h⟩ := bind_iff.1 h
    have hl := fields_length hx
    match xs, hl, hx, h with
    | [x, y, z], _, hx, h =>
      obtain ⟨d, hd, h⟩ := bind_iff.1 h
      obtain ⟨o, ho, h⟩ := bind_iff.1 h
      obtain ⟨s, hs, h⟩ := bind_iff.1 h
      injection h with h
      subst h
      rw [(natOfJson_iff _ _).1 ho, (natOfJson_iff _ _).1 hs] at hx
      exact ⟨x, (fields3_iff _ _ _ _ _ _ _).1 hx, (definitionOfJson_iff _ _).1 hd⟩
  · rintro ⟨d, hs, hd⟩
    exact bind_iff.2 ⟨_, (fields3_iff _ _ _ _ _ _ _).2 hs, bind_iff.2 ⟨_, (definitionOfJson_iff _ _).2 hd,
      bind_iff.2 ⟨_, (natOfJson_iff _ _).2 rfl, bind_iff.2 ⟨_, (natOfJson_iff _ _).2 rfl, rfl⟩⟩⟩⟩

theorem memoryOfJson_iff (v : Json) (size align : Nat) : memoryOfJson v = .ok (size, align) ↔
    IsStruct v [("size", .int size), ("align", .int align)] ∧ IsAllocLayout size align := by
  constructor
  · intro h
    obtain ⟨xs, hx, h⟩ := bind_iff.1 h
    have hl := fields_length hx
    match xs, hl, hx, h with
    | [x, y], _, hx, h =>
      obtain ⟨s, hs, h⟩ := bind_iff.1 h
      obtain ⟨a, ha, h⟩ := bind_iff.1 h
      rw [(natOfJson_iff _ _).1 hs, (natOfJson_iff _ _).1 ha] at hx
      split at h
      · rename_i z hm
        injection h with h
        subst h
        obtain ⟨h1, h2, rfl, rfl⟩ := memoryLayout_ok.1 hm
        exact ⟨(fields2_iff _ _ _ _ _).1 hx, h1, h2⟩
      · cases h
  · rintro ⟨hs, h1, h2⟩
    refine bind_iff.2 ⟨_, (fields2_iff _ _ _ _ _).2 hs, bind_iff.2 ⟨_, (natOfJson_iff _ _).2 rfl,
      bind_iff.2 ⟨_, (natOfJson_iff _ _).2 rfl, ?_⟩⟩⟩
    rw [memoryLayout_ok.2 ⟨h1, h2, rfl, rfl⟩]
    rfl

/-- **C95** (layouts): a layout is read from exactly the documents that describe one; all others are errors. -/
theorem C95_layout_documents (v : Json) (l : StoredLayout) : layoutOfJson v = .ok l ↔ DescribesLayout v l := by
  constructor
  · intro h
    obtain ⟨xs, hx, h⟩ := bind_iff.1 h
    have hl := fields_length hx
    match xs, hl, hx, h with
    | [x, y], _, hx, h =>
      obtain ⟨ms, hm, h⟩ := bind_iff.1 h
      obtain ⟨⟨size, align⟩, ha, h⟩ := bind_iff.1 h
      injection h with h
      subst h
      unfold membersOfJson at hm
      split at hm
      · rename_i as _
        refine ⟨as, y, (fields2_iff _ _ _ _ _).1 hx, ?_, (memoryOfJson_iff _ _ _).1 ha⟩
        exact ((mapM_forall₂ _ _ _).1 hm).imp fun _ _ h => (memberOfJson_iff _ _).1 h
      · cases hm
  · rintro ⟨as, y, hs, hf, ha⟩
    refine bind_iff.2 ⟨_, (fields2_iff _ _ _ _ _).2 hs, bind_iff.2 ⟨l.members, ?_,
      bind_iff.2 ⟨(l.size, l.align), (memoryOfJson_iff _ _ _).2 ha, rfl⟩⟩⟩
    exact (mapM_forall₂ _ _ _).2 (hf.imp fun _ _ h => (memberOfJson_iff _ _).2 h)

theorem returns_fields (names : List String) (v : Json) : Returns (jsonFields names v) := by
  unfold jsonFields
  split
  · exact returns_mapM _ fun _ _ => returns_orErr _
  · split
    · exact returns_ok _
    · exact returns_err
  · exact returns_err

theorem returns_text (v : Json) : Returns (textOfJson v) := by
  cases v <;> first | exact returns_ok _ | exact returns_err

theorem returns_uuid (v : Json) : Returns (uuidOfJson v) := by
  cases v <;> first | exact returns_orErr _ | exact returns_err

theorem returns_custom (v : Json) : Returns (customOfJson v) := by
  cases v with
  | object entries =>
    exact returns_bind (returns_orErr _) fun _ _ => returns_bind (returns_orErr _) fun _ _ =>
      returns_bind (returns_orErr _) fun _ _ => returns_bind (returns_orErr _) fun _ _ =>
        returns_bind (returns_orErr _) fun _ _ => returns_bind (returns_uuid _) fun _ _ => returns_ok _
  | _ => exact returns_err

theorem returns_dataType (v : Json) : Returns (dataTypeOfJson v) := by
  unfold dataTypeOfJson
  split
  · exact returns_orErr _
  · split
    · exact returns_bind (returns_orErr _) fun _ _ => returns_ok _
    · split
      · exact returns_custom _
      · refine returns_bind (returns_orErr _) fun _ _ => ?_
        split
        · exact returns_ok _
        · exact returns_err
  · exact returns_err

theorem returns_definition (v : Json) : Returns (definitionOfJson v) := by
  refine returns_bind (returns_fields _ _) fun xs _ => ?_
  split
  · exact returns_bind (returns_text _) fun _ _ => returns_bind (returns_dataType _) fun _ _ => returns_ok _
  · exact returns_err

theorem returns_member (v : Json) : Returns (memberOfJson v) := by
  refine returns_bind (returns_fields _ _) fun xs _ => ?_
  split
  · exact returns_bind (returns_definition _) fun _ _ => returns_bind (returns_orErr _) fun _ _ =>
      returns_bind (returns_orErr _) fun _ _ => returns_ok _
  · exact returns_err

theorem returns_memory (v : Json) : Returns (memoryOfJson v) := by
  refine returns_bind (returns_fields _ _) fun xs _ => ?_
  split
  · refine returns_bind (returns_orErr _) fun _ _ => returns_bind (returns_orErr _) fun _ _ => ?_
    split
    · exact returns_ok _
    · exact returns_err
  · exact returns_err

/-- **C95** (layouts): whatever the document, the result is a layout or an error. -/
theorem C95_layout_returns (v : Json) : Returns (layoutOfJson v) := by
  refine returns_bind (returns_fields _ _) fun xs _ => ?_
  split
  · refine returns_bind ?_ fun _ _ => returns_bind (returns_memory _) fun _ _ => returns_ok _
    unfold membersOfJson
    split
    · exact returns_mapM _ fun _ _ => returns_member _
    · exact returns_err
  · exact returns_err

/-! ## Writing -/

theorem describes_type {t : DataType} (h : HasUuid t) : DescribesType (dataTypeToJson t) t := by
  cases t with
  | byteArray n => exact Or.inr (Or.inl ⟨n, rfl, rfl⟩)
  | custom size align uuid =>
    obtain ⟨s, hs, hu⟩ := (uuidOfJson_iff _ _).1 (uuid_round h)
    exact Or.inr (Or.inr ⟨size, align, uuid, _, s, rfl, rfl, rfl, by rw [← hs]; rfl, hu, rfl⟩)
  | _ => exact Or.inl ⟨_, by decide, Or.inl rfl⟩

theorem describes_definition {d : AttrDef} (h : HasUuid d.datatype) : DescribesDefinition (definitionToJson d) d := by
  refine ⟨_, Or.inl ⟨_, rfl, ?_⟩, describes_type h⟩
  simp [List.lookup]

theorem describes_member {m : StoredMember} (h : HasUuid m.definition.datatype) :
    DescribesMember (memberToJson m) m := by
  refine ⟨_, Or.inl ⟨_, rfl, ?_⟩, describes_definition h⟩
  simp [List.lookup]

theorem describes_layout {l : StoredLayout} (h : IsStoredLayout l) : DescribesLayout (layoutToJson l) l := by
  refine ⟨l.members.map memberToJson, memoryToJson l.size l.align, Or.inl ⟨_, rfl, ?_⟩, ?_, Or.inl ⟨_, rfl, ?_⟩, h.2⟩
  · simp [List.lookup]
  · rw [List.forall₂_map_left_iff]
    exact List.forall₂_same.2 fun m hm => describes_member (h.1 m hm)
  · simp [List.lookup]

/-- **C95** (layouts): what was written is read back. -/
theorem C95_layout_round_trip (l : StoredLayout) (h : IsStoredLayout l) : layoutOfJson (layoutToJson l) = .ok l :=
  (C95_layout_documents _ _).2 (describes_layout h)

/-- **C95** (attributes): what was written is read back. -/
theorem C95_definition_round_trip (d : AttrDef) (h : HasUuid d.datatype) :
    definitionOfJson (definitionToJson d) = .ok d :=
  (definitionOfJson_iff _ _).2 (describes_definition h)

/-- **C95** (data types): what was written is read back. -/
theorem C95_type_round_trip (t : DataType) (h : HasUuid t) : dataTypeOfJson (dataTypeToJson t) = .ok t :=
  (dataTypeOfJson_iff _ _).2 (describes_type h)

/-- **C95** (layouts): everything that is read is a layout Rust can represent, so writing it and reading it again
    gives the same layout. -/
theorem C95_layout_read (v : Json) (l : StoredLayout) (h : layoutOfJson v = .ok l) :
    IsStoredLayout l ∧ layoutOfJson (layoutToJson l) = .ok l := by
  have hs : IsStoredLayout l := by
    obtain ⟨as, y, _, hf, _, ha⟩ := (C95_layout_documents _ _).1 h
    refine ⟨fun m hm => ?_, ha⟩
    obtain ⟨i, hi, rfl⟩ := List.getElem_of_mem hm
    obtain ⟨d, _, t, _, ht⟩ := hf.get (i := i) (by rw [hf.length_eq]; exact hi) hi
    simp only [List.get_eq_getElem] at ht
    rcases ht with ⟨name, hn, _⟩ | ⟨n, _, e⟩ | ⟨size, align, uuid, e, s, _, _, _, _, ⟨ds, hy, hx, hl, _⟩, e⟩
    · have : ∀ p ∈ typeNames, HasUuid p.2 := by
        intro p hp
        simp only [typeNames, List.mem_cons, List.not_mem_nil, or_false] at hp
        rcases hp with rfl | rfl | rfl | rfl | rfl | rfl | rfl | rfl | rfl | rfl | rfl | rfl | rfl | rfl | rfl | rfl <;>
          trivial
      exact this _ hn
    · rw [e]
      trivial
    · rw [e]
      have := hexOf_lt hx
      rw [hl] at this
      exact this
  exact ⟨hs, C95_layout_round_trip l hs⟩

/-- **C95** (layouts): every layout built with `add_attribute` (hence with `from_attributes`, `from_attributes_packed`)
    is read back. -/
theorem C95_built_layouts (calls : List (AttrDef × FieldAlignment)) (l : PointLayout)
    (h : forLoop calls PointLayout.default (fun l c => l.addAttribute c.1 c.2) = .ok l)
    (hu : ∀ c ∈ calls, HasUuid c.1.datatype) :
    layoutOfJson (layoutToJson (.ofLayout l)) = .ok (.ofLayout l) := by
  have inv := forLoop_inv
    (P := fun pre (l : PointLayout) => l.attributes.map Member.definition = pre.map Prod.fst ∧
      IsAllocLayout l.size l.align)
    (f := fun (l : PointLayout) (c : AttrDef × FieldAlignment) => l.addAttribute c.1 c.2)
    (fun pre x s s' h0 h1 => by
      obtain ⟨-, h2, h3, rfl⟩ := PointLayout.addAttribute_ok.1 h1
      exact ⟨by simp [h0.1], h2, h3⟩) calls [] _ _ ⟨rfl, ⟨0, rfl⟩, by decide⟩ h
  refine C95_layout_round_trip _ ⟨fun m hm => ?_, inv.2⟩
  obtain ⟨m', hm', rfl⟩ := List.mem_map.1 hm
  have : m'.definition ∈ calls.map Prod.fst := by
    have := inv.1
    simp only [List.nil_append] at this
    rw [← this]
    exact List.mem_map_of_mem hm'
  obtain ⟨c, hc, e⟩ := List.mem_map.1 this
  have := hu c hc
  rw [e] at this
  exact this

/-- **C95** (layouts): every layout made by `from_members_and_alignment` is read back. -/
theorem C95_member_layouts (ms : List Member) (align : Nat) (l : PointLayout)
    (h : PointLayout.fromMembersAndAlignment ms align = .ok l) (hu : ∀ m ∈ ms, HasUuid m.definition.datatype) :
    layoutOfJson (layoutToJson (.ofLayout l)) = .ok (.ofLayout l) := by
  obtain ⟨-, -, h3, h4, rfl⟩ := PointLayout.fromMembers_ok.1 h
  refine C95_layout_round_trip _ ⟨fun m hm => ?_, h3, h4⟩
  obtain ⟨m', hm', rfl⟩ := List.mem_map.1 hm
  exact hu m' hm'

example : (PointLayout.fromAttributes [⟨"Position3D", .vec3f64⟩, ⟨"id", .custom 20 4 0x67e5504410b1426f9247bb680e5fe0c8⟩,
    ⟨"raw", .byteArray 3⟩]).bind (fun l => (layoutOfJson (layoutToJson (.ofLayout l))).map fun s => (s, s.size)) =
    .ok (⟨[⟨⟨"Position3D", .vec3f64⟩, 0, 24⟩, ⟨⟨"id", .custom 20 4 0x67e5504410b1426f9247bb680e5fe0c8⟩, 24, 20⟩,
      ⟨⟨"raw", .byteArray 3⟩, 44, 3⟩], 48, 8⟩, 48) := by decide +kernel

example : dataTypeToJson (.custom 20 4 0x67e5504410b1426f9247bb680e5fe0c8) = .object [("Custom", .object
    [("size", .int 20), ("min_alignment", .int 4), ("name", .string "67e55044-10b1-426f-9247-bb680e5fe0c8")])] := by
  have : String.ofList (hyphenate (hexDigits 32 0x67e5504410b1426f9247bb680e5fe0c8)) =
    "67e55044-10b1-426f-9247-bb680e5fe0c8" := by decide +kernel
  rw [dataTypeToJson, uuidToJson, this]
  rfl

/-- An array instead of an object, a missing entry, an alignment that is no power of two, an unknown data type. -/
example : dataTypeOfJson (.object [("U8", .null)]) = .ok .u8 ∧ dataTypeOfJson (.string "U128") = .error .err ∧
    layoutOfJson (.array [.array [], .array [.int 20, .int 4]]) = .ok ⟨[], 20, 4⟩ ∧
    layoutOfJson (.object [("attributes", .array [])]) = .error .err ∧
    layoutOfJson (.object [("attributes", .array []), ("memory_layout", .object [("size", .int 20), ("align", .int 3)])]) =
      .error .err := by
  refine ⟨?_, ?_, ?_, ?_, ?_⟩ <;> rfl

/-! ## What is not checked -/

/-- **C95**, what is wrong: documents are read that describe no layout: two attributes with the same name, two that
    share bytes, one outside the point, one whose size is not that of its type. -/
theorem C95_unchecked_violated :
    (∃ v l, layoutOfJson v = .ok l ∧ ¬ (l.members.map fun m => m.definition.name).Nodup) ∧
    (∃ v l, layoutOfJson v = .ok l ∧
      ¬ l.members.Pairwise fun a b => a.offset + a.size ≤ b.offset ∨ b.offset + b.size ≤ a.offset) ∧
    (∃ v l, layoutOfJson v = .ok l ∧ ¬ ∀ m ∈ l.members, m.offset + m.size ≤ l.size) ∧
    (∃ v l, layoutOfJson v = .ok l ∧ ¬ ∀ m ∈ l.members, m.size = m.definition.datatype.size) := by
  have read : ∀ l : StoredLayout, (∀ m ∈ l.members, HasUuid m.definition.datatype) → l.align = 1 → l.size ≤ 8 →
      layoutOfJson (layoutToJson l) = .ok l := by
    intro l h1 h2 h3
    exact C95_layout_round_trip l ⟨h1, ⟨0, h2⟩, by rw [h2]; omega⟩
  refine ⟨⟨_, ⟨[⟨⟨"a", .u8⟩, 0, 1⟩, ⟨⟨"a", .u8⟩, 1, 1⟩], 2, 1⟩, read _ ?_ rfl (by decide), by decide⟩,
    ⟨_, ⟨[⟨⟨"a", .u8⟩, 0, 1⟩, ⟨⟨"b", .u8⟩, 0, 1⟩], 2, 1⟩, read _ ?_ rfl (by decide), by decide⟩,
    ⟨_, ⟨[⟨⟨"a", .u8⟩, 5, 1⟩], 2, 1⟩, read _ ?_ rfl (by decide), by decide⟩,
    ⟨_, ⟨[⟨⟨"a", .u8⟩, 0, 2⟩], 2, 1⟩, read _ ?_ rfl (by decide), by decide⟩⟩ <;>
  · intro m hm
    simp only [List.mem_cons, List.not_mem_nil, or_false] at hm
    rcases hm with rfl | rfl <;> trivial

/-- **C95**, a consequence: with a layout that was read, a buffer accepts a point and then panics when its attribute is
    read. -/
theorem C95_unchecked_panics_violated :
    ∃ (v : Json) (l : PointLayout) (d : AttrDef) (point : Bytes) (b : VectorBuffer),
      layoutOfJson v = .ok (.ofLayout l) ∧ l.hasAttribute d ∧ point.length = l.size ∧
      VectorBuffer.pushPoints (VectorBuffer.newFromLayout l) point = .ok b ∧ b.length = 1 ∧
      BorrowedBuffer.getAttribute b d 0 (zeros d.size) = panicked := by
  refine ⟨layoutToJson (.ofLayout ⟨[⟨⟨"a", .u8⟩, 5⟩], 2, 1⟩), ⟨[⟨⟨"a", .u8⟩, 5⟩], 2, 1⟩, ⟨"a", .u8⟩, [0, 0],
    ⟨[0, 0], ⟨[⟨⟨"a", .u8⟩, 5⟩], 2, 1⟩, 1⟩, ?_, by decide, rfl, by decide, rfl, by decide⟩
  refine C95_layout_round_trip _ ⟨fun m hm => ?_, ⟨0, rfl⟩, by decide⟩
  simp only [StoredLayout.ofLayout, List.map_cons, List.map_nil, List.mem_cons, List.not_mem_nil, or_false] at hm
  subst hm
  trivial

/-! ## Bounding boxes -/

theorem asF64_iff (v : Json) (x : F64) : v.asF64 = some x ↔ IsNumber v x := by
  cases v <;> simp [Json.asF64, IsNumber, eq_comm]

theorem pointOfJson_iff (v : Json) (p : P3 F64) : pointOfJson v = .ok p ↔ DescribesPoint v p := by
  constructor
  · intro h
    unfold pointOfJson at h
    split at h
    · rename_i x y z
      obtain ⟨a, ha, h⟩ := bind_iff.1 h
      obtain ⟨b, hb, h⟩ := bind_iff.1 h
      obtain ⟨c, hc, h⟩ := bind_iff.1 h
      injection h with h
      subst h
      exact ⟨x, y, z, rfl, (asF64_iff _ _).1 (orErr_ok.1 ha), (asF64_iff _ _).1 (orErr_ok.1 hb),
        (asF64_iff _ _).1 (orErr_ok.1 hc)⟩
    · cases h
  · rintro ⟨x, y, z, rfl, hx, hy, hz⟩
    exact bind_iff.2 ⟨_, orErr_ok.2 ((asF64_iff _ _).2 hx), bind_iff.2 ⟨_, orErr_ok.2 ((asF64_iff _ _).2 hy),
      bind_iff.2 ⟨_, orErr_ok.2 ((asF64_iff _ _).2 hz), rfl⟩⟩⟩

/-- **C95** (boxes): a bounding box is read from exactly the documents that describe one. -/
theorem C95_bounds_documents (v : Json) (b : AABB F64) : boundsOfJson v = .ok b ↔ DescribesBounds v b := by
  constructor
  · intro h
    obtain ⟨xs, hx, h⟩ := bind_iff.1 h
    have hl := fields_length hx
    match xs, hl, hx, h with
    | [x, y], _, hx, h =>
      obtain ⟨mn, h1, h⟩ := bind_iff.1 h
      obtain ⟨mx, h2, h⟩ := bind_iff.1 h
      injection h with h
      subst h
      exact ⟨x, y, (fields2_iff _ _ _ _ _).1 hx, (pointOfJson_iff _ _).1 h1, (pointOfJson_iff _ _).1 h2⟩
  · rintro ⟨x, y, hs, h1, h2⟩
    exact bind_iff.2 ⟨_, (fields2_iff _ _ _ _ _).2 hs, bind_iff.2 ⟨_, (pointOfJson_iff _ _).2 h1,
      bind_iff.2 ⟨_, (pointOfJson_iff _ _).2 h2, rfl⟩⟩⟩

/-- **C95** (boxes): whatever the document, the result is a bounding box or an error. -/
theorem C95_bounds_returns (v : Json) : Returns (boundsOfJson v) := by
  have point : ∀ v, Returns (pointOfJson v) := by
    intro v
    unfold pointOfJson
    split
    · exact returns_bind (returns_orErr _) fun _ _ => returns_bind (returns_orErr _) fun _ _ =>
        returns_bind (returns_orErr _) fun _ _ => returns_ok _
    · exact returns_err
  refine returns_bind (returns_fields _ _) fun xs _ => ?_
  split
  · exact returns_bind (point _) fun _ _ => returns_bind (point _) fun _ _ => returns_ok _
  · exact returns_err

theorem number_finite {x : F64} (h : x.isFinite = true) : IsNumber (.ofF64 x) x := by
  rw [Json.ofF64, if_pos h]
  exact Or.inl rfl

/-- **C95** (boxes): a bounding box is read back exactly if all its coordinates are finite; otherwise reading what was
    written is an error. -/
theorem C95_bounds_round_trip (b : AABB F64) :
    ((∀ x ∈ coordinates b, x.isFinite = true) → boundsOfJson (boundsToJson b) = .ok b) ∧
    ((∃ x ∈ coordinates b, x.isFinite = false) → boundsOfJson (boundsToJson b) = .error .err) := by
  have hs : ∀ mn mx, IsStruct (boundsToJson b) [("min", mn), ("max", mx)] ↔
      mn = pointToJson b.min ∧ mx = pointToJson b.max := by
    intro mn mx
    simp [IsStruct, boundsToJson, List.lookup, eq_comm]
  constructor
  · intro h
    simp only [coordinates, List.mem_cons, List.not_mem_nil, or_false, forall_eq_or_imp, forall_eq] at h
    obtain ⟨h1, h2, h3, h4, h5, h6⟩ := h
    exact (C95_bounds_documents _ _).2 ⟨_, _, (hs _ _).2 ⟨rfl, rfl⟩,
      ⟨_, _, _, rfl, number_finite h1, number_finite h2, number_finite h3⟩,
      ⟨_, _, _, rfl, number_finite h4, number_finite h5, number_finite h6⟩⟩
  · rintro ⟨x, hx, hf⟩
    rcases C95_bounds_returns (boundsToJson b) with ⟨b', h⟩ | h
    · exfalso
      obtain ⟨mn, mx, h0, h1, h2⟩ := (C95_bounds_documents _ _).1 h
      obtain ⟨rfl, rfl⟩ := (hs _ _).1 h0
      have hnull : ∀ y, ¬ IsNumber (.ofF64 x) y := by
        intro y hy
        rw [Json.ofF64, if_neg (by simp [hf])] at hy
        rcases hy with hy | ⟨z, hy, _⟩ <;> cases hy
      obtain ⟨x1, y1, z1, e1, a1, a2, a3⟩ := h1
      obtain ⟨x2, y2, z2, e2, a4, a5, a6⟩ := h2
      simp only [pointToJson, Json.array.injEq, List.cons.injEq, and_true] at e1 e2
      obtain ⟨rfl, rfl, rfl⟩ := e1
      obtain ⟨rfl, rfl, rfl⟩ := e2
      simp only [coordinates, List.mem_cons, List.not_mem_nil, or_false] at hx
      rcases hx with rfl | rfl | rfl | rfl | rfl | rfl
      · exact hnull _ a1
      · exact hnull _ a2
      · exact hnull _ a3
      · exact hnull _ a4
      · exact hnull _ a5
      · exact hnull _ a6
    · exact h

/-- **C95**, what is wrong: a bounding box without bound on one side is not read back, and boxes are read whose minimum
    is above their maximum, which `from_min_max` refuses. -/
theorem C95_bounds_violated :
    (∃ b : AABB F64, AABB.fromMinMax b.min b.max = .ok b ∧ boundsOfJson (boundsToJson b) ≠ .ok b) ∧
    (∃ v b, boundsOfJson v = .ok b ∧ AABB.fromMinMax b.min b.max = panicked) := by
  constructor
  · refine ⟨⟨⟨.zero .f64, .zero .f64, .zero .f64⟩, ⟨.inf .f64 false, .zero .f64, .zero .f64⟩⟩, by decide +kernel, ?_⟩
    rw [(C95_bounds_round_trip _).2 ⟨.inf .f64 false, by simp [coordinates], by decide +kernel⟩]
    simp
  · refine ⟨_, ⟨⟨.ofBits .f64 0x3FF0000000000000, .zero .f64, .zero .f64⟩, ⟨.zero .f64, .zero .f64, .zero .f64⟩⟩,
      (C95_bounds_round_trip _).1 ?_, by decide +kernel⟩
    simp only [coordinates, List.mem_cons, List.not_mem_nil, or_false, forall_eq_or_imp, forall_eq]
    decide +kernel

/-- A box written with arrays and integers, and one without a maximum. -/
example : boundsOfJson (.array [.array [.int 0, .int 0, .int 0], .array [.float (.ofBits .f64 0x3FF0000000000000), .int 0, .int 0]]) =
    .ok ⟨⟨.zero .f64, .zero .f64, .zero .f64⟩, ⟨.ofBits .f64 0x3FF0000000000000, .zero .f64, .zero .f64⟩⟩ ∧
    boundsOfJson (.object [("min", .array [.int 0, .int 0])]) = .error .err := by
  constructor
  · decide +kernel
  · rfl

end Pasture.Props
