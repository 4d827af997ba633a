import Verif.Lemmas.LasCopy
import Verif.Lemmas.RoundTrip
import Verif.Props.LasSingle
import Verif.Spec.LasDetour

/-!
# Reading records directly, and by way of the default layout
-/

namespace Pasture.Las

open Spec Props

/-! ## The calls for one attribute -/

theorem fold_one (d : AttrDef) (R : Option Rule) : ∀ (calls : List MappingCall) (p : Plan),
    (∀ c ∈ calls, c.target = d → c.rule = R) → (∃ c ∈ calls, c.target = d) → calls.foldl Plan.update p d = R
  | [], _, _, h => by obtain ⟨c, hc, _⟩ := h; cases hc
  | c :: calls, p, h, h' => by
    rw [List.foldl_cons]
    by_cases hex : ∃ c ∈ calls, c.target = d
    · exact fold_one d R calls _ (fun c hc => h c (List.mem_cons_of_mem _ hc)) hex
    · rw [fold_other d calls _ (fun c hc he => hex ⟨c, hc, he⟩)]
      obtain ⟨c', hc', he⟩ := h'
      rcases List.mem_cons.1 hc' with rfl | hc'
      · unfold Plan.update
        rw [if_pos he.symm]
        exact h _ List.mem_cons_self he
      · exact absurd ⟨c', hc', he⟩ hex

/-- The calls for packed attributes. -/
def packedCalls (target : PointLayout) (flags : AttrDef) (ty : DataType) (size : Nat) (packed : List (String × Nat × Nat)) :
    List MappingCall :=
  packed.flatMap fun (name, shift, width) => customise target name fun d =>
    [.transformed flags d ty (bitField size shift width) true]

theorem packedCalls_mem {target : PointLayout} {flags : AttrDef} {ty : DataType} {size : Nat}
    {packed : List (String × Nat × Nat)} {c : MappingCall} (h : c ∈ packedCalls target flags ty size packed) :
    ∃ m ∈ target.attributes, ∃ shift width, (m.name, shift, width) ∈ packed ∧
      c = .transformed flags m.definition ty (bitField size shift width) true := by
  obtain ⟨⟨name, shift, width⟩, hx, h⟩ := List.mem_flatMap.1 h
  dsimp only at h
  unfold customise at h
  split at h
  · rename_i m hf
    have hn := List.find?_some hf
    simp only [decide_eq_true_eq] at hn
    refine ⟨m, List.mem_of_find?_eq_some hf, shift, width, by rw [hn]; exact hx, List.mem_singleton.1 h⟩
  · cases h

theorem packedCalls_intro {target : PointLayout} (ht : Solid target) {flags : AttrDef} {ty : DataType} {size : Nat}
    {packed : List (String × Nat × Nat)} {m : Member} (hm : m ∈ target.attributes) {shift width : Nat}
    (h : (m.name, shift, width) ∈ packed) :
    .transformed flags m.definition ty (bitField size shift width) true ∈ packedCalls target flags ty size packed := by
  refine List.mem_flatMap.2 ⟨(m.name, shift, width), h, ?_⟩
  dsimp only
  unfold customise
  rw [find_member ht hm rfl]
  exact List.mem_singleton.2 rfl

theorem lasCalls_basic {raw target : PointLayout} {t : Transforms} (h : basicFlags ∈ raw.attributes.map Member.definition) :
    lasCalls raw target t = customise target "Position3D" (positionCalls t) ++ packedCalls target basicFlags .u8 1 packedBasic := by
  unfold lasCalls
  rw [if_pos h]
  rfl

theorem lasCalls_extended {raw target : PointLayout} {t : Transforms} (h : basicFlags ∉ raw.attributes.map Member.definition) :
    lasCalls raw target t =
      customise target "Position3D" (positionCalls t) ++ packedCalls target extendedFlags .u16 2 packedExtended := by
  unfold lasCalls
  rw [if_neg h]
  rfl

theorem positionCalls_mem {target : PointLayout} {t : Transforms} {c : MappingCall} (ho : PlainTarget target)
    (h : c ∈ customise target "Position3D" (positionCalls t)) :
    ∃ m ∈ target.attributes, m.name = "Position3D" ∧ m.definition = position3D ∧
      c = .transformed localPosition m.definition .vec3f64 (worldPosition t) false := by
  unfold customise at h
  split at h
  · rename_i m hf
    have hn := List.find?_some hf
    simp only [decide_eq_true_eq] at hn
    have hm := List.mem_of_find?_eq_some hf
    have hd := ho.positions m hm hn
    have hd' : m.definition = position3D := by
      obtain ⟨⟨nm, dt⟩, o⟩ := m
      have e1 : nm = "Position3D" := hn
      have e2 : dt = .vec3f64 := hd
      rw [e1, e2]
      rfl
    refine ⟨m, hm, hn, hd', ?_⟩
    unfold positionCalls at h
    rw [show m.definition.datatype = .vec3f64 from hd] at h
    exact List.mem_singleton.1 h
  · cases h

theorem definition_inj {l : PointLayout} (hl : Solid l) {m m' : Member} (hm : m ∈ l.attributes) (hm' : m' ∈ l.attributes)
    (h : m'.definition = m.definition) : m' = m :=
  same_name hl hm hm' (congrArg AttrDef.name h)

/-- The packed names, once each, and not the position. -/
theorem fields_named : (∀ x ∈ packedBasic, x.1 ≠ "Position3D") ∧ ∀ x ∈ packedExtended, x.1 ≠ "Position3D" := by decide

/-! ## Bit fields as numbers -/

theorem small_field : ∀ k < 16, convertNumber .u16 .u8 (natLE 2 k) = natLE 1 k ∧ readNum .u8 (natLE 1 k) = readNum .u16 (natLE 2 k) ∧
    convertNumber .u8 .u16 (natLE 1 k) = natLE 2 k := by decide +kernel

theorem extended_small {shift width : Nat} {name : String} (h : (name, shift, width) ∈ packedExtended) (v : Bytes) :
    ∃ k < 16, bitField 2 shift width v = natLE 2 k := by
  refine ⟨leNat v / 2 ^ shift % 2 ^ width, ?_, rfl⟩
  have : 2 ^ width ≤ 16 := by
    simp only [packedExtended, List.mem_cons, List.not_mem_nil, or_false, Prod.mk.injEq] at h
    rcases h with ⟨_, _, rfl⟩ | ⟨_, _, rfl⟩ | ⟨_, _, rfl⟩ | ⟨_, _, rfl⟩ | ⟨_, _, rfl⟩ | ⟨_, _, rfl⟩ <;> decide
  exact Nat.lt_of_lt_of_le (Nat.mod_lt _ (Nat.two_pow_pos _)) this

theorem conversion_other {a b : DataType} {p : Prim} (hp : scalarType a = some p) (hne : a ≠ b) :
    conversion a b = (scalarType b).map (convertNumber p) := by
  have hc : componentType a = none := by
    cases hc : componentType a with
    | none => rfl
    | some r => rw [scalar_of_component hc] at hp; cases hp
  unfold conversion
  rw [if_neg hne, hp, hc]
  cases scalarType b <;> rfl

theorem conversion_self (a : DataType) : conversion a a = some id := by
  unfold conversion
  rw [if_pos rfl]

/-- A small number of 16 bits, converted directly and by way of eight bits. -/
theorem field_detour' {x y : Bytes} (h1 : convertNumber .u16 .u8 x = y) (h2 : readNum .u8 y = readNum .u16 x)
    (h3 : convertNumber .u8 .u16 y = x) {b : DataType} :
    (conversion .u16 b).isSome = (conversion .u8 b).isSome ∧
      ∀ f g, conversion .u16 b = some f → conversion .u8 b = some g → f x = g y := by
  have s16 : scalarType .u16 = some .u16 := rfl
  have s8 : scalarType .u8 = some .u8 := rfl
  by_cases n1 : DataType.u16 = b
  · subst n1
    rw [conversion_self, conversion_other s8 (by decide), s16]
    refine ⟨by rw [Option.isSome_map]; rfl, fun f g hf hg => ?_⟩
    rw [← Option.some.inj hf, ← Option.some.inj hg, h3]
    rfl
  · rw [conversion_other s16 n1]
    by_cases n2 : DataType.u8 = b
    · subst n2
      rw [conversion_self, s8]
      refine ⟨by rw [Option.isSome_map]; rfl, fun f g hf hg => ?_⟩
      rw [← Option.some.inj hf, ← Option.some.inj hg, h1]
      rfl
    · rw [conversion_other s8 n2]
      cases scalarType b with
      | none => exact ⟨by rw [Option.isSome_map, Option.isSome_map], fun f g hf => by cases hf⟩
      | some q =>
        refine ⟨by rw [Option.isSome_map, Option.isSome_map], fun f g hf hg => ?_⟩
        rw [← Option.some.inj hf, ← Option.some.inj hg]
        unfold convertNumber
        rw [h2]

theorem field_detour {k : Nat} (hk : k < 16) {b : DataType} :
    (conversion .u16 b).isSome = (conversion .u8 b).isSome ∧ ∀ f g, conversion .u16 b = some f → conversion .u8 b = some g →
      f (natLE 2 k) = g (convertNumber .u16 .u8 (natLE 2 k)) := by
  obtain ⟨h1, h2, h3⟩ := small_field k hk
  have := field_detour' h1 h2 h3 (b := b)
  rw [← h1] at this
  exact this

/-! ## The rules of one attribute -/

/-- What the proofs need to know about a format: the layout `raw` of its records and its default layout `l`. -/
structure FormatLayouts (n : Nat) (raw l : PointLayout) (t : Transforms) : Prop where
  raw_solid : Solid raw
  solid : Solid l
  differ : l ≠ raw
  filled : ∀ m ∈ l.attributes, Filled n raw t (lasPlan raw l t) m.definition
  position : position3D ∈ l.attributes.map Member.definition
  basic : n ≤ 5 → ∀ x ∈ packedBasic, (⟨x.1, .u8⟩ : AttrDef) ∈ l.attributes.map Member.definition
  extended : 5 < n → ∀ x ∈ packedExtended, (⟨x.1, .u8⟩ : AttrDef) ∈ l.attributes.map Member.definition
  rest : ∀ m ∈ raw.attributes, m.name ∈ ["LASLocalPosition", "LASBasicFlags", "LASExtendedFlags"] ∨
    m.definition ∈ l.attributes.map Member.definition
  flags : basicFlags ∈ raw.attributes.map Member.definition ↔ n ≤ 5
  flags' : 5 < n → extendedFlags ∈ raw.attributes.map Member.definition
  local_mem : localPosition ∈ raw.attributes.map Member.definition

theorem formatLayouts (t : Transforms) (n : Nat) (hn : n ≤ 10) : ∃ f raw l, Format.new n = .ok f ∧
    pointLayoutFromMetadata ⟨f, none⟩ true = .ok raw ∧ pointLayoutFromMetadata ⟨f, none⟩ false = .ok l ∧
    FormatLayouts n raw l t := by
  obtain ⟨f, h1, h2, h3⟩ := layouts_packed n hn
  obtain ⟨f', h4, h5, h6, h7⟩ := plan_packed t ⟨n, by omega⟩
  obtain rfl : f = f' := by rw [h1] at h4; cases h4; rfl
  obtain ⟨f', g1, g2, g3, g4, g5, g6⟩ := raw_attributes n hn
  obtain rfl : f = f' := by rw [h1] at g1; cases g1; rfl
  obtain ⟨f', l', raw', k1, k2, k3, _, _, k6, k7, _⟩ := format_layouts n hn false t
  obtain rfl : f = f' := by rw [h1] at k1; cases k1; rfl
  obtain rfl : packedLayout (writtenAttributes f) = l' := by rw [h3] at k2; exact Except.ok.inj k2
  obtain rfl : packedLayout (rawAttributes f) = raw' := by rw [h2] at k3; exact Except.ok.inj k3
  have eW : (packedLayout (writtenAttributes f)).attributes.map Member.definition = writtenAttributes f := packedMembers_definition _ _
  have eR : (packedLayout (rawAttributes f)).attributes.map Member.definition = rawAttributes f := packedMembers_definition _ _
  have hflags : (basicFlags ∈ rawAttributes f ↔ n ≤ 5) ∧ (5 < n → extendedFlags ∈ rawAttributes f) := by
    have key : ∀ n : Fin 11, ∃ f, Format.new n = .ok f ∧ (basicFlags ∈ rawAttributes f ↔ n.val ≤ 5) ∧
        (5 < n.val → extendedFlags ∈ rawAttributes f) := by
      intro n
      match n with
      | 0 | 1 | 2 | 3 | 4 | 5 | 6 | 7 | 8 | 9 | 10 => exact ⟨_, rfl, by decide +kernel, by decide +kernel⟩
    obtain ⟨f', e1, e2⟩ := key ⟨n, by omega⟩
    obtain rfl : f = f' := by rw [h1] at e1; cases e1; rfl
    exact e2
  have hloc : localPosition ∈ rawAttributes f := by
    cases hr : rawAttributes f with
    | nil => rw [hr] at g2; cases g2
    | cons a as => rw [hr] at g2; cases g2; exact List.mem_cons_self
  refine ⟨f, _, _, h1, h2, h3, k6, k7, h5, ?_, ?_, ?_, ?_, ?_, ?_, ?_, ?_⟩
  · intro m hm
    exact h7 m.definition (eW ▸ List.mem_map.2 ⟨m, hm, rfl⟩)
  · rw [eW]; exact g3
  · rw [eW]; exact g4
  · rw [eW]; exact g5
  · intro m hm
    rw [eW]
    have hmem : m.definition ∈ rawAttributes f := eR ▸ List.mem_map.2 ⟨m, hm, rfl⟩
    cases hr : rawAttributes f with
    | nil => rw [hr] at hmem; cases hmem
    | cons a as =>
      rw [hr] at g2 g6 hmem
      cases g2
      rcases List.mem_cons.1 hmem with h | h
      · left
        show m.definition.name ∈ _
        rw [h]
        decide
      · rcases g6 _ h with ⟨_, e⟩ | ⟨_, e⟩ | ⟨e, _⟩
        · left
          show m.definition.name ∈ _
          rw [e]
          decide
        · left
          show m.definition.name ∈ _
          rw [e]
          decide
        · exact .inr e
  · rw [eR]; exact hflags.1
  · rw [eR]; exact hflags.2
  · rw [eR]; exact hloc

section
variable {n : Nat} {raw l target : PointLayout} {t : Transforms} (F : FormatLayouts n raw l t) (ht : Solid target) (ho : PlainTarget target)
include F ht ho

/-- The calls for an attribute that is neither packed nor a position. -/
theorem plan_plain {m : Member} (hm : m ∈ target.attributes) (hp : m.name ≠ "Position3D")
    (hk : ∀ x ∈ packedFields n, x.1 ≠ m.name) : lasPlan raw target t m.definition = defaultPlan raw m.definition := by
  unfold lasPlan planOf
  apply fold_other
  intro c hc he
  unfold packedFields at hk
  by_cases hb : n ≤ 5
  · rw [lasCalls_basic (F.flags.2 hb)] at hc
    rw [if_pos hb] at hk
    rcases List.mem_append.1 hc with h | h
    · obtain ⟨m', hm', hn, _, rfl⟩ := positionCalls_mem ho h
      obtain rfl := definition_inj ht hm hm' he
      exact hp hn
    · obtain ⟨m', hm', s, w, hx, rfl⟩ := packedCalls_mem h
      obtain rfl := definition_inj ht hm hm' he
      exact hk _ hx rfl
  · rw [lasCalls_extended (fun h => hb (F.flags.1 h))] at hc
    rw [if_neg hb] at hk
    rcases List.mem_append.1 hc with h | h
    · obtain ⟨m', hm', hn, _, rfl⟩ := positionCalls_mem ho h
      obtain rfl := definition_inj ht hm hm' he
      exact hp hn
    · obtain ⟨m', hm', s, w, hx, rfl⟩ := packedCalls_mem h
      obtain rfl := definition_inj ht hm hm' he
      exact hk _ hx rfl

theorem plan_basic (hb : n ≤ 5) {m : Member} (hm : m ∈ target.attributes) {shift width : Nat} (hx : (m.name, shift, width) ∈ packedBasic) :
    lasPlan raw target t m.definition = (conversion .u8 m.datatype).map fun f => ⟨basicFlags, fun v => f (bitField 1 shift width v)⟩ := by
  unfold lasPlan planOf
  rw [lasCalls_basic (F.flags.2 hb)]
  apply fold_one
  · intro c hc he
    rcases List.mem_append.1 hc with h | h
    · obtain ⟨m', hm', hn, _, rfl⟩ := positionCalls_mem ho h
      obtain rfl := definition_inj ht hm hm' he
      exact absurd hn (fields_named.1 _ hx)
    · obtain ⟨m', hm', s, w, hx', rfl⟩ := packedCalls_mem h
      obtain rfl := definition_inj ht hm hm' he
      have e1 := basic_unique _ hx
      have e2 := basic_unique _ hx'
      rw [e1] at e2
      cases e2
      rfl
  · exact ⟨_, List.mem_append_right _ (packedCalls_intro ht hm hx), rfl⟩

theorem plan_extended (hb : 5 < n) {m : Member} (hm : m ∈ target.attributes) {shift width : Nat}
    (hx : (m.name, shift, width) ∈ packedExtended) :
    lasPlan raw target t m.definition =
      (conversion .u16 m.datatype).map fun f => ⟨extendedFlags, fun v => f (bitField 2 shift width v)⟩ := by
  unfold lasPlan planOf
  rw [lasCalls_extended (fun h => absurd (F.flags.1 h) (by omega))]
  apply fold_one
  · intro c hc he
    rcases List.mem_append.1 hc with h | h
    · obtain ⟨m', hm', hn, _, rfl⟩ := positionCalls_mem ho h
      obtain rfl := definition_inj ht hm hm' he
      exact absurd hn (fields_named.2 _ hx)
    · obtain ⟨m', hm', s, w, hx', rfl⟩ := packedCalls_mem h
      obtain rfl := definition_inj ht hm hm' he
      have e1 := extended_unique _ hx
      have e2 := extended_unique _ hx'
      rw [e1] at e2
      cases e2
      rfl
  · exact ⟨_, List.mem_append_right _ (packedCalls_intro ht hm hx), rfl⟩

/-- An attribute that the default layout has. -/
theorem rule_detour {m d : Member} (hm : m ∈ target.attributes) (hd : d ∈ l.attributes) (hn : d.name = m.name) {g : Bytes → Bytes}
    (hg : conversion d.datatype m.datatype = some g) :
    ∃ r r', lasPlan raw target t m.definition = some r ∧ lasPlan raw l t d.definition = some r' ∧ r.source = r'.source ∧
      r'.source ∈ raw.attributes.map Member.definition ∧ ∀ v, r.value v = g (r'.value v) := by
  cases F.filled d hd with
  | position h hmem hp =>
    have hname : m.name = "Position3D" := by rw [← hn]; show d.definition.name = _; rw [h]; rfl
    have hdt := ho.positions m hm hname
    have hpos := plan_position (raw := raw) (t := t) ht hm hname
      (c := .transformed localPosition m.definition .vec3f64 (worldPosition t) false)
      (by unfold positionCalls; rw [show m.definition.datatype = .vec3f64 from hdt]) rfl
    have hrule : (MappingCall.transformed localPosition m.definition .vec3f64 (worldPosition t) false).rule =
        some ⟨localPosition, fun v => worldPosition t (convertVector .i32 .f64 v)⟩ := by
      unfold MappingCall.rule MappingCall.target
      rw [show m.definition.datatype = .vec3f64 from hdt]
      rfl
    rw [hrule] at hpos
    refine ⟨_, _, hpos, hp, rfl, hmem, fun v => ?_⟩
    have hdd : d.datatype = .vec3f64 := by show d.definition.datatype = _; rw [h]; rfl
    rw [hdd, hdt] at hg
    cases hg
    rfl
  | basic shift width hb hx hmem hp =>
    have hx' : (m.name, shift, width) ∈ packedBasic := hn ▸ hx
    have hdd : d.datatype = .u8 := by
      obtain ⟨d', hd', e⟩ := List.mem_map.1 (F.basic hb _ hx)
      obtain rfl := same_name F.solid hd hd' (show d'.definition.name = d.definition.name by rw [e])
      exact congrArg AttrDef.datatype e
    rw [hdd] at hg
    have := plan_basic F ht ho hb hm hx'
    rw [hg] at this
    exact ⟨_, _, this, hp, rfl, hmem, fun v => rfl⟩
  | extended shift width hb hx hmem hp =>
    have hx' : (m.name, shift, width) ∈ packedExtended := hn ▸ hx
    have hdd : d.datatype = .u8 := by
      obtain ⟨d', hd', e⟩ := List.mem_map.1 (F.extended hb _ hx)
      obtain rfl := same_name F.solid hd hd' (show d'.definition.name = d.definition.name by rw [e])
      exact congrArg AttrDef.datatype e
    rw [hdd] at hg
    have := plan_extended F ht ho hb hm hx'
    have hs := (field_detour (k := 0) (by omega) (b := m.datatype)).1
    rw [hg] at hs
    obtain ⟨f, hf⟩ := Option.isSome_iff_exists.1 hs
    rw [hf] at this
    refine ⟨_, _, this, hp, rfl, hmem, fun v => ?_⟩
    obtain ⟨k, hk, e⟩ := extended_small hx v
    dsimp only
    rw [e]
    exact (field_detour hk).2 f g hf hg
  | same hmem hnames hk hp =>
    have hplain := plan_plain F ht ho hm (by rintro e; exact hnames (by show d.name ∈ _; rw [hn, e]; decide)) (by
      intro x hx e
      have : ((packedFields n).lookup d.definition.name).isSome := by
        rw [show d.definition.name = x.1 from hn.trans e.symm]
        unfold packedFields at hx ⊢
        split at hx
        · rename_i hb
          rw [if_pos hb, basic_unique x hx]; rfl
        · rename_i hb
          rw [if_neg hb, extended_unique x hx]; rfl
      rw [hk] at this
      cases this)
    obtain ⟨r, hr, e⟩ := List.mem_map.1 hmem
    have hname : r.name = m.name := (congrArg AttrDef.name e).trans hn
    have hdt : r.datatype = d.datatype := congrArg AttrDef.datatype e
    have hdef : defaultPlan raw m.definition = some ⟨r.definition, g⟩ := by
      unfold defaultPlan
      rw [show m.definition.name = m.name from rfl, find_member F.raw_solid hr hname]
      dsimp only
      rw [show m.definition.datatype = m.datatype from rfl, hdt, hg]
      rfl
    exact ⟨_, _, hplain.trans hdef, hp, e, hmem, fun v => rfl⟩

/-- An attribute that the default layout does not have. -/
theorem rule_none {m : Member} (hm : m ∈ target.attributes) (hno : ¬ named l m.name) : lasPlan raw target t m.definition = none := by
  have key : ∀ d ∈ l.attributes.map Member.definition, d.name ≠ m.name := by
    intro d hd e
    obtain ⟨d', hd', rfl⟩ := List.mem_map.1 hd
    exact hno ⟨d', hd', e⟩
  rw [plan_plain F ht ho hm (fun e => key _ F.position e.symm)]
  · unfold defaultPlan
    have : raw.attributes.find? (fun r => r.name = m.definition.name) = none := by
      rw [List.find?_eq_none]
      intro r hr
      simp only [decide_eq_true_eq]
      intro e
      rcases F.rest r hr with h | h
      · exact ho.names m hm (by rw [show m.name = r.name from e.symm]; exact h)
      · exact key _ h e
    rw [this]
  · intro x hx e
    unfold packedFields at hx
    split at hx
    · rename_i hb
      exact key _ (F.basic hb x hx) e
    · rename_i hb
      exact key _ (F.extended (by omega) x hx) e

/-- Which layouts can be read is decided by the same conversions. -/
theorem readable_iff : Readable raw target t ↔
    ∀ m ∈ target.attributes, named l m.name → (defaultPlan l m.definition).isSome := by
  constructor
  · rintro ⟨_, h2, h3⟩ m hm ⟨d, hd, hn⟩
    unfold defaultPlan
    rw [show m.definition.name = m.name from rfl, find_member F.solid hd hn]
    dsimp only
    rw [Option.isSome_map, show m.definition.datatype = m.datatype from rfl]
    cases F.filled d hd with
    | position h hmem hp =>
      have hname : m.name = "Position3D" := by rw [← hn]; show d.definition.name = _; rw [h]; rfl
      have hdd : d.datatype = .vec3f64 := by show d.definition.datatype = _; rw [h]; rfl
      rw [hdd, ho.positions m hm hname]
      rfl
    | basic shift width hb hx hmem hp =>
      have hx' : (m.name, shift, width) ∈ packedBasic := hn ▸ hx
      have hdd : d.datatype = .u8 := by
        obtain ⟨d', hd', e⟩ := List.mem_map.1 (F.basic hb _ hx)
        obtain rfl := same_name F.solid hd hd' (show d'.definition.name = d.definition.name by rw [e])
        exact congrArg AttrDef.datatype e
      have hall := (h3 (.transformed basicFlags m.definition .u8 (bitField 1 shift width) true)
        (by rw [lasCalls_basic (F.flags.2 hb)]; exact List.mem_append_right _ (packedCalls_intro ht hm hx'))).2.2.2
      unfold MappingCall.rule at hall
      rw [Option.isSome_map] at hall
      rw [hdd]
      exact hall
    | extended shift width hb hx hmem hp =>
      have hx' : (m.name, shift, width) ∈ packedExtended := hn ▸ hx
      have hdd : d.datatype = .u8 := by
        obtain ⟨d', hd', e⟩ := List.mem_map.1 (F.extended hb _ hx)
        obtain rfl := same_name F.solid hd hd' (show d'.definition.name = d.definition.name by rw [e])
        exact congrArg AttrDef.datatype e
      have hall := (h3 (.transformed extendedFlags m.definition .u16 (bitField 2 shift width) true)
        (by rw [lasCalls_extended (fun h => absurd (F.flags.1 h) (by omega))]
            exact List.mem_append_right _ (packedCalls_intro ht hm hx'))).2.2.2
      unfold MappingCall.rule at hall
      rw [Option.isSome_map] at hall
      rw [hdd, ← (field_detour (k := 0) (by omega) (b := m.datatype)).1]
      exact hall
    | same hmem hnames hk hp =>
      obtain ⟨r, hr, e⟩ := List.mem_map.1 hmem
      have hname : r.name = m.name := (congrArg AttrDef.name e).trans hn
      have := h2 m hm ⟨r, hr, hname⟩
      unfold defaultPlan at this
      rw [show m.definition.name = m.name from rfl, find_member F.raw_solid hr hname] at this
      dsimp only at this
      rw [Option.isSome_map] at this
      rw [show d.datatype = r.datatype from (congrArg AttrDef.datatype e).symm]
      exact this
  · intro h
    have hconv : ∀ m ∈ target.attributes, ∀ d ∈ l.attributes.map Member.definition, d.name = m.name →
        (conversion d.datatype m.datatype).isSome := by
      intro m hm d hd hn
      obtain ⟨d', hd', rfl⟩ := List.mem_map.1 hd
      have := h m hm ⟨d', hd', hn⟩
      unfold defaultPlan at this
      rw [show m.definition.name = m.name from rfl, find_member F.solid hd' hn] at this
      dsimp only at this
      rw [Option.isSome_map] at this
      exact this
    refine ⟨fun m hm hn => .inl (ho.positions m hm hn), ?_, ?_⟩
    · rintro m hm ⟨r, hr, hn⟩
      unfold defaultPlan
      rw [show m.definition.name = m.name from rfl, find_member F.raw_solid hr hn]
      dsimp only
      rw [Option.isSome_map]
      rcases F.rest r hr with hx | hx
      · exact absurd (hn ▸ hx) (ho.names m hm)
      · exact hconv m hm _ hx hn
    · intro c hc
      have hpos : ∀ c ∈ customise target "Position3D" (positionCalls t), c.allowed raw target := by
        intro c hc
        obtain ⟨m, hm, hn, hd, rfl⟩ := positionCalls_mem ho hc
        refine ⟨F.local_mem, List.mem_map.2 ⟨m, hm, rfl⟩, ?_, ?_⟩
        · show DataType.vec3f64 = m.definition.datatype
          rw [hd]
          rfl
        · unfold MappingCall.rule MappingCall.target
          dsimp only
          rw [hd]
          rfl
      by_cases hb : n ≤ 5
      · rw [lasCalls_basic (F.flags.2 hb)] at hc
        rcases List.mem_append.1 hc with hc | hc
        · exact hpos c hc
        · obtain ⟨m, hm, s, w, hx, rfl⟩ := packedCalls_mem hc
          refine ⟨F.flags.2 hb, List.mem_map.2 ⟨m, hm, rfl⟩, rfl, ?_⟩
          unfold MappingCall.rule
          rw [Option.isSome_map]
          exact hconv m hm ⟨m.name, .u8⟩ (F.basic hb _ hx) rfl
      · rw [lasCalls_extended (fun h => hb (F.flags.1 h))] at hc
        rcases List.mem_append.1 hc with hc | hc
        · exact hpos c hc
        · obtain ⟨m, hm, s, w, hx, rfl⟩ := packedCalls_mem hc
          refine ⟨F.flags' (by omega), List.mem_map.2 ⟨m, hm, rfl⟩, rfl, ?_⟩
          unfold MappingCall.rule
          rw [Option.isSome_map]
          have := hconv m hm ⟨m.name, .u8⟩ (F.extended (by omega) _ hx) rfl
          rw [← (field_detour (k := 0) (by omega) (b := m.datatype)).1] at this
          exact this

/-- One record. -/
theorem point_detour (h : ∀ m ∈ target.attributes, named l m.name → (defaultPlan l m.definition).isSome) (rec : Bytes) :
    (defaultPlan l).apply (readPoint raw l t rec (zeroPoint l)) (zeroPoint target) =
      readPoint raw target t rec (zeroPoint target) := by
  have hne : target ≠ raw := by
    rintro rfl
    obtain ⟨m, hm, e⟩ := List.mem_map.1 F.local_mem
    exact ho.names m hm (by show m.definition.name ∈ _; rw [e]; decide)
  unfold readPoint
  rw [if_neg F.differ, if_neg hne]
  unfold zeroPoint
  rw [show ∀ (plan : Plan) (s : Point), plan.apply s (target.attributes.map fun m => (m.definition, List.replicate m.size (0 : Byte))) =
    target.attributes.map fun m => (m.definition, match plan m.definition with
      | some r => (match s.get r.source with | some v => r.value v | none => List.replicate m.size (0 : Byte))
      | none => List.replicate m.size (0 : Byte)) from fun plan s => by unfold Plan.apply; rw [List.map_map]; rfl]
  rw [show ∀ (plan : Plan) (s : Point), plan.apply s (target.attributes.map fun m => (m.definition, List.replicate m.size (0 : Byte))) =
    target.attributes.map fun m => (m.definition, match plan m.definition with
      | some r => (match s.get r.source with | some v => r.value v | none => List.replicate m.size (0 : Byte))
      | none => List.replicate m.size (0 : Byte)) from fun plan s => by unfold Plan.apply; rw [List.map_map]; rfl]
  apply List.map_congr_left
  intro m hm
  congr 1
  by_cases hno : named l m.name
  · obtain ⟨d, hd, hn⟩ := id hno
    have hsome := h m hm hno
    unfold defaultPlan at hsome
    rw [show m.definition.name = m.name from rfl, find_member F.solid hd hn] at hsome
    dsimp only at hsome
    rw [Option.isSome_map] at hsome
    rw [show m.definition.datatype = m.datatype from rfl] at hsome
    obtain ⟨g, hg⟩ := Option.isSome_iff_exists.1 hsome
    obtain ⟨r, r', h1, h2, h3, h4, h5⟩ := rule_detour F ht ho hm hd hn hg
    obtain ⟨s, hs, e⟩ := List.mem_map.1 h4
    have hget : (pointOf raw rec).get r'.source = some (window rec s.offset s.size) := by
      rw [← e]
      exact lookup_map_def (g := fun m => window rec m.offset m.size) hs F.raw_solid.names
    have hz : Point.get (l.attributes.map fun m => (m.definition, List.replicate m.size (0 : Byte))) d.definition =
        some (List.replicate d.size 0) := lookup_map_def (g := fun m => List.replicate m.size (0 : Byte)) hd F.solid.names
    have hmid := apply_get (lasPlan raw l t) (pointOf raw rec) (l.attributes.map fun m => (m.definition, List.replicate m.size (0 : Byte)))
      d.definition
    rw [hz, h2] at hmid
    simp only [Option.map_some, hget] at hmid
    have p : defaultPlan l m.definition = some ⟨d.definition, g⟩ := by
      unfold defaultPlan
      rw [show m.definition.name = m.name from rfl, find_member F.solid hd hn]
      dsimp only
      rw [show m.definition.datatype = m.datatype from rfl, hg]
      rfl
    simp only [p, h1, hmid, h3, hget, h5]
  · rw [rule_none F ht ho hm hno]
    have : defaultPlan l m.definition = none := by
      unfold defaultPlan
      have : l.attributes.find? (fun d => d.name = m.definition.name) = none := by
        rw [List.find?_eq_none]
        intro d hd
        simp only [decide_eq_true_eq]
        exact fun e => hno ⟨d, hd, e⟩
      rw [this]
    rw [this]

end

end Pasture.Las
