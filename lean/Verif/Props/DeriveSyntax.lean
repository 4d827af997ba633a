import Verif.Spec.DeriveSyntax
import Verif.Lemmas.PntsJson
import Verif.Props.Layout

/-!
# C90: The derive macro accepts the documented structs
-/

namespace Pasture.Props
open Pasture.Derive Pasture.Spec

theorem typeOf_documented (t : PrimType) : typeOf (documentedType t) = .ok t := by
  cases t <;> rfl

theorem builtin_names : documentedAttributes.map (fun a => (a.1, a.2.name)) = builtinNames := by decide

theorem builtin_lookup {tag : String} {d : AttrDef} (h : (tag, d) ∈ documentedAttributes) :
    builtinNames.lookup tag = some d.name := by
  have key : ∀ a ∈ documentedAttributes, builtinNames.lookup a.1 = some a.2.name := by decide
  exact key _ h

theorem nameOf_tagged {a : FieldAttribute} {name : String} (h : Tagged a name) : nameOf [a] = .ok name := by
  cases h with
  | builtin h =>
    show (match builtinNames.lookup _ with | some name => Except.ok name | none => .error .err : Out String) = _
    rw [builtin_lookup h]
  | custom name => rfl

theorem describe_documented {f : StructField} {d : FieldDesc} (h : DocumentedField f d) : describe f = .ok d := by
  obtain ⟨a, h1, h2⟩ := h.name
  unfold describe
  rw [h.type, h1, typeOf_documented, nameOf_tagged h2]
  rfl

theorem describe_all {fs : List StructField} {ds : List FieldDesc} (h : List.Forall₂ DocumentedField fs ds) :
    fs.mapM describe = .ok ds := by
  induction h with
  | nil => rfl
  | cons h _ ih => rw [List.mapM_cons, describe_documented h, ih]; rfl

theorem metaIdent_some {p : MetaPath} {ident : String} (h : p.ident = some ident) : p = oneIdent ident := by
  obtain ⟨l, s⟩ := p
  unfold MetaPath.ident at h
  split at h
  · rename_i h1 h2
    cases h
    cases h1
    cases h2
    rfl
  · cases h

theorem written_packed (r : ReprArg) : argIsPacked (writtenArg r) = (packingOf r).isSome := by
  cases r <;> rfl

theorem written_c (r : ReprArg) : argIsC (writtenArg r) = decide (r = .c) := by
  cases r <;> rfl

/-- How the `repr` attribute is read, from the written one to its meaning. -/
theorem member_layout {i : Item} {args : List ReprArg} (h : HasRepr i args) (h64 : ∀ n, .packedN n ∈ args → n < 2 ^ 64) :
    memberLayoutOf i.attrs = structMemberLayout [args] := by
  obtain ⟨before, after, e, ho⟩ := h
  have hf : i.attrs.find? isReprAttribute = some (reprAttribute args) := by
    rw [e, List.find?_append, List.find?_eq_none.2, Option.none_or]
    · rfl
    · intro a ha hr
      apply ho a (List.mem_append_left _ ha)
      have : a.path.ident = some "repr" := by simpa [isReprAttribute] using hr
      exact metaIdent_some this
  unfold memberLayoutOf
  rw [hf]
  show (match (args.map writtenArg).find? argIsPacked with
    | some arg => (packingFromArg arg).map .packed
    | none => if ((args.map writtenArg).find? argIsC).isSome then .ok .c else .error .err : Out StructMemberLayout) = _
  unfold structMemberLayout
  simp only
  have hc : ((args.map writtenArg).find? argIsC).isSome = args.contains .c := by
    clear e ho hf h64
    induction args with
    | nil => rfl
    | cons a args ih =>
      rw [List.map_cons, List.find?_cons, written_c, List.contains_cons]
      by_cases ha : a = .c
      · simp [ha]
      · simp only [ha, decide_false, ih]
        have : (ReprArg.c == a) = false := by simpa using fun h => ha h.symm
        rw [this, Bool.false_or]
  rw [hc]
  generalize args.contains .c = c
  clear hc hf e ho
  induction args with
  | nil => rfl
  | cons a args ih =>
    rw [List.map_cons, List.find?_cons, List.findSome?_cons, written_packed]
    have ih := ih fun n hm => h64 n (.tail _ hm)
    cases a with
    | packed => rfl
    | packedN n =>
      show (if n < 2 ^ 64 then .ok n else .error .err : Out Nat).map _ = _
      rw [if_pos (h64 n (.head _))]
      rfl
    | _ => exact ih

/-- **C90**: every documented struct is accepted, and its layout is the one of fields with the documented names and
    types and the written `repr` (C07 says which). -/
theorem C90_accepts {i : Item} {fields : List FieldDesc} (h : DocumentedStruct i fields) {args : List ReprArg}
    (hr : HasRepr i args) (h64 : ∀ n, .packedN n ∈ args → n < 2 ^ 64) :
    deriveItem i = derivePointType [args] fields := by
  unfold deriveItem
  rw [h.notGeneric, h.struct, describe_all h.fields, member_layout hr h64]
  unfold derivePointType
  show (structMemberLayout [args]).bind _ = _
  cases structMemberLayout [args] <;> rfl

def memberLayoutWith : Option Nat → StructMemberLayout
  | none => .c
  | some n => .packed n

/-- What `Packs` says is what the macro reads. -/
theorem packs_read {args : List ReprArg} {packing : Option Nat} (h : Packs args packing) :
    structMemberLayout [args] = .ok (memberLayoutWith packing) := by
  obtain ⟨hc, -, h⟩ := h
  unfold structMemberLayout
  simp only
  cases packing with
  | none =>
    have : args.findSome? packingOf = none := by
      rw [List.findSome?_eq_none_iff]
      intro a ha
      cases a with
      | packed => exact absurd ha h.1
      | packedN n => exact absurd ha (h.2 n)
      | _ => rfl
    rw [this]
    simp [hc, memberLayoutWith]
  | some n =>
    obtain ⟨h1, h2, h3⟩ := h
    cases e : args.findSome? packingOf with
    | none =>
      rw [List.findSome?_eq_none_iff] at e
      rcases h1 with ⟨h1, -⟩ | h1
      · cases e _ h1
      · cases e _ h1
    | some m =>
      obtain ⟨a, ha, he⟩ := List.exists_of_findSome?_eq_some e
      cases a with
      | packed => cases he; rw [h2 ha]; rfl
      | packedN k => cases he; rw [h3 _ ha]; rfl
      | _ => cases he

/-- **C07, from the written struct**: for every documented struct with `#[repr(C)]`, `#[repr(C, packed)]` or
    `#[repr(C, packed(N))]`, in whichever order and among other attributes, the derived layout has exactly the offsets,
    the size and the alignment that the rules of `repr(C)` give the struct. -/
theorem C07_derive_repr {i : Item} {fields : List FieldDesc} (h : DocumentedStruct i fields) {args : List ReprArg}
    (hr : HasRepr i args) {packing : Option Nat} (hp : Packs args packing)
    (hn : ∀ n, packing = some n → ∃ k, n = 2 ^ k ∧ k ≤ 29)
    {offs : List Nat} {size align : Nat} (hrust : RustStructLayout packing 1 (structFields fields) offs size align)
    (hnames : (fields.map FieldDesc.attributeName).Nodup) (hfit : size + align ≤ 2 ^ 63) :
    ∃ l, deriveItem i = .ok l ∧
      l.attributes.map Member.definition = fields.map (fun f => ⟨f.attributeName, f.primitiveType.toDataType⟩) ∧
      l.attributes.map Member.offset = offs ∧ l.size = size ∧ l.align = align := by
  have h64 : ∀ n, .packedN n ∈ args → n < 2 ^ 64 := by
    intro n hm
    cases packing with
    | none => exact absurd hm (hp.2.2.2 n)
    | some m =>
      obtain ⟨k, e, hk⟩ := hn m rfl
      rw [hp.2.2.2.2 n hm, e]
      exact Nat.pow_lt_pow_right (by decide) (by omega)
  rw [C90_accepts h hr h64]
  unfold derivePointType
  rw [packs_read hp]
  refine C07_derive_matches_rust_layout _ fields offs size align ?_ ?_ hnames hfit
  · obtain ⟨stop, a0, h1, h2, h3, h4⟩ := hrust
    have e : align = a0 := by
      have := h2.1
      omega
    subst e
    cases packing with
    | none =>
      refine ⟨stop, ?_, ?_, h4⟩
      · simpa using h1
      · simpa using h2
    | some n => exact ⟨stop, h1, h2, h4⟩
  · intro n e
    cases packing with
    | none => cases e
    | some m => cases e; obtain ⟨k, e, -⟩ := hn n rfl; exact ⟨k, e⟩

/-- A struct `#[repr(packed)]` with a `u8` and a `u64`. -/
def packedAlone : Item := ⟨true, false, [reprAttribute [.packed]],
  [⟨[customTag "a"], plainType "u8"⟩, ⟨[customTag "b"], plainType "u64"⟩]⟩

/-- **C07 violated**: `#[repr(packed)]` without `C` is accepted (and documented) although it leaves the order of the fields
    to the compiler. The layout puts them in the written order, so it is right for one of the layouts that the struct may
    have and wrong for another one. -/
theorem C07_packed_alone_violated :
    DocumentedStruct packedAlone [⟨"a", .u8⟩, ⟨"b", .u64⟩] ∧ HasRepr packedAlone [.packed] ∧
    deriveItem packedAlone = .ok ⟨[⟨⟨"a", .u8⟩, 0⟩, ⟨⟨"b", .u64⟩, 1⟩], 9, 1⟩ ∧
    MayLayOut 1 (structFields [⟨"a", .u8⟩, ⟨"b", .u64⟩]) [0, 1] 9 1 ∧
    MayLayOut 1 (structFields [⟨"a", .u8⟩, ⟨"b", .u64⟩]) [8, 0] 9 1 := by
  have top : ∀ fs : List Field, (∀ f ∈ fs, f.align = 1) → IsMaxAlign fs 1 := fun fs h =>
    ⟨by omega, fun f hf => (h f hf).le, .inl rfl⟩
  refine ⟨⟨rfl, rfl, .cons ⟨rfl, _, rfl, .custom _⟩ (.cons ⟨rfl, _, rfl, .custom _⟩ .nil)⟩,
    ⟨[], [], rfl, by simp⟩, by decide, ?_, ?_⟩
  · refine ⟨[(⟨1, 1⟩, 0), (⟨8, 8⟩, 1)], .refl _, rfl, 9, 1, ?_, top _ (by decide), by decide, ?_⟩
    · exact .cons ⟨by decide, by decide, fun r _ h => h⟩ (.cons ⟨by decide, by decide, fun r _ h => h⟩ (.nil _))
    · exact ⟨by decide, by decide, fun r _ h => h⟩
  · refine ⟨[(⟨8, 8⟩, 0), (⟨1, 1⟩, 8)], .swap _ _ _, rfl, 9, 1, ?_, top _ (by decide), by decide, ?_⟩
    · exact .cons ⟨by decide, by decide, fun r _ h => h⟩ (.cons ⟨by decide, by decide, fun r _ h => h⟩ (.nil _))
    · exact ⟨by decide, by decide, fun r _ h => h⟩

/-- The builtin attributes are those of the documentation, no more and no less, under the names that the attributes of
    the library have. -/
theorem C90_builtin (tag name : String) :
    nameOf [builtinTag tag] = .ok name ↔ ∃ d, (tag, d) ∈ documentedAttributes ∧ d.name = name := by
  constructor
  · intro h
    change (match builtinNames.lookup tag with | some name => Except.ok name | none => .error .err : Out String) = _ at h
    cases e : builtinNames.lookup tag with
    | none => rw [e] at h; cases h
    | some n =>
      rw [e] at h
      cases h
      have hm := Tiles3d.mem_of_lookup e
      rw [← builtin_names] at hm
      obtain ⟨⟨t, d⟩, h1, h2⟩ := List.mem_map.1 hm
      cases h2
      exact ⟨d, h1, rfl⟩
  · rintro ⟨d, h, rfl⟩
    exact nameOf_tagged (.builtin h)

theorem identOf_some {leading : Bool} {segments : List Segment} {ident : String}
    (h : identOfType leading segments = some ident) : leading = false ∧ segments = [.mk ident .none] := by
  unfold identOfType at h
  split at h
  · cases h; exact ⟨rfl, rfl⟩
  · cases h

theorem typeOf_ok {t : RustType} {p : PrimType} (h : typeOf t = .ok p) : LooksLike t p := by
  unfold typeOf at h
  split at h
  · split at h
    · cases h
    · rename_i hq
      obtain rfl := Bool.eq_false_of_not_eq_true hq
      split at h
      · rename_i ident e
        obtain ⟨rfl, rfl⟩ := identOf_some e
        left
        unfold identType at h
        split_ifs at h <;> (cases h; subst_vars; rfl)
      · right
        unfold nonIdentType at h
        split at h
        · cases h
        · split at h
          · cases h
          · split at h
            · rename_i qualified leading inner args
              split at h
              · rename_i component e
                obtain ⟨rfl, rfl⟩ := identOf_some e
                unfold vectorType at h
                split_ifs at h <;> (cases h; subst_vars; exact ⟨_, _, _, _, _, _, rfl, rfl⟩)
              · cases h
            · cases h
  · cases h

theorem nameOf_ok {attrs : List FieldAttribute} {name : String} (h : nameOf attrs = .ok name) : NamedBy attrs name := by
  unfold nameOf at h
  split at h
  · rename_i a
    obtain ⟨parsed⟩ := a
    split at h
    · rename_i m p more e
      cases e
      split at h
      · rename_i ident e
        obtain rfl := metaIdent_some e
        split at h
        · rename_i n e
          cases h
          have hm := Tiles3d.mem_of_lookup e
          rw [← builtin_names] at hm
          obtain ⟨⟨t, d⟩, h1, h2⟩ := List.mem_map.1 hm
          cases h2
          exact ⟨_, _, _, rfl, .inl ⟨_, d, rfl, h1, rfl⟩⟩
        · cases h
      · cases h
    · rename_i m p lit more e
      cases e
      split at h
      · rename_i ident n e
        obtain rfl := metaIdent_some e
        split at h
        · cases h
        · rename_i hi
          cases h
          obtain rfl := not_ne_iff.1 hi
          exact ⟨_, _, _, rfl, .inr rfl⟩
      · cases h
    · cases h
  · cases h

theorem describe_ok {f : StructField} {d : FieldDesc} (h : describe f = .ok d) :
    LooksLike f.ty d.primitiveType ∧ NamedBy f.attrs d.attributeName := by
  unfold describe at h
  cases e : typeOf f.ty with
  | error x => rw [e] at h; cases h
  | ok t =>
    cases e' : nameOf f.attrs with
    | error x => rw [e, e'] at h; cases h
    | ok n =>
      rw [e, e'] at h
      cases h
      exact ⟨typeOf_ok e, nameOf_ok e'⟩

theorem isPacked_iff (a : NestedMeta) : argIsPacked a = true ↔ PackedArg a := by
  constructor
  · intro h
    unfold argIsPacked at h
    split at h
    · left
      rw [metaIdent_some (of_decide_eq_true h)]
    · right
      exact ⟨_, by rw [metaIdent_some (of_decide_eq_true h)]⟩
    · cases h
  · rintro (rfl | ⟨nested, rfl⟩) <;> rfl

theorem memberLayout_ok {attrs : List StructAttribute} {sl : StructMemberLayout} (h : memberLayoutOf attrs = .ok sl) :
    LooksRepr attrs sl := by
  unfold memberLayoutOf at h
  split at h
  · cases h
  · rename_i a ha
    obtain ⟨hr, before, after, e, hb⟩ := List.find?_eq_some_iff_append.1 ha
    obtain ⟨path, parsed⟩ := a
    have hp : path = oneIdent "repr" := metaIdent_some (of_decide_eq_true hr)
    split at h
    · rename_i m args em
      change parsed = _ at em
      refine ⟨before, m, args, after, by rw [e, hp, em], ?_, ?_⟩
      · intro a hm hc
        have := hb a hm
        rw [isReprAttribute, hc] at this
        revert this
        decide
      · split at h
        · rename_i arg harg
          obtain ⟨hr, first, rest, e, hb⟩ := List.find?_eq_some_iff_append.1 harg
          cases e1 : packingFromArg arg with
          | error x => rw [e1] at h; cases h
          | ok n =>
            rw [e1] at h
            cases h
            refine ⟨first, arg, rest, e, ?_, ?_⟩
            · intro a hm hc
              have := hb a hm
              rw [(isPacked_iff a).2 hc] at this
              cases this
            · rcases (isPacked_iff arg).1 hr with rfl | ⟨nested, rfl⟩
              · cases e1
                exact .inl ⟨rfl, rfl⟩
              · right
                unfold packingFromArg at e1
                split at e1
                · rename_i q; cases q
                · rename_i q
                  cases q
                  split at e1
                  · cases e1
                    exact ⟨_, rfl⟩
                  · cases e1
                · cases e1
        · rename_i hnone
          split at h
          · rename_i hc
            cases h
            refine ⟨?_, ?_⟩
            · obtain ⟨a, ha⟩ := Option.isSome_iff_exists.1 hc
              have hm := List.mem_of_find?_eq_some ha
              have hq := List.find?_some ha
              unfold argIsC at hq
              split at hq
              · rwa [metaIdent_some (of_decide_eq_true hq)] at hm
              · cases hq
            · intro a hm hc
              have := List.find?_eq_none.1 hnone a hm
              exact this ((isPacked_iff a).2 hc)
          · cases h
    · cases h

/-- **C90, the other direction**: what is accepted is a struct without generic parameters, every field of which looks
    like a documented one to the macro; its layout is that of fields with these names and types. Missing: the macro looks
    only at the start of the path of a type, at the first entry of an attribute, whichever macro it belongs to, and at the
    first `repr` attribute. -/
theorem C90_accepted_partial {i : Item} {l : PointLayout} (h : deriveItem i = .ok l) :
    i.isStruct = true ∧ i.isGeneric = false ∧ ∃ fields, List.Forall₂ (fun f d => LooksLike f.ty d.primitiveType ∧
      NamedBy f.attrs d.attributeName) i.fields fields ∧ ∃ sl, LooksRepr i.attrs sl ∧ layout sl fields = .ok l := by
  unfold deriveItem at h
  split at h
  · cases h
  · rename_i hg
    split at h
    · rename_i hs
      cases e : i.fields.mapM describe with
      | error x => rw [e] at h; cases h
      | ok ds =>
        rw [e] at h
        cases e3 : memberLayoutOf i.attrs with
        | error x => rw [e3] at h; cases h
        | ok sl =>
        rw [e3] at h
        refine ⟨hs, Bool.eq_false_of_not_eq_true hg, ds, ?_, sl, memberLayout_ok e3, h⟩
        clear h
        generalize i.fields = fs at e
        induction fs generalizing ds with
        | nil => cases e; exact .nil
        | cons f fs ih =>
          rw [List.mapM_cons] at e
          cases e1 : describe f with
          | error x => rw [e1] at e; cases e
          | ok d =>
            cases e2 : fs.mapM describe with
            | error x => rw [e1, e2] at e; cases e
            | ok ds' =>
              rw [e1, e2] at e
              cases e
              exact .cons (describe_ok e1) (ih ds' e2)
    · cases h

/-- A struct `#[repr(C)]` with these fields. -/
def itemOf (fields : List StructField) : Item := ⟨true, false, [reprAttribute [.c]], fields⟩

/-- **C90 violated**: a comment for the documentation on a field of a documented struct makes the macro refuse it. -/
theorem C90_comment_violated (text : String) :
    DocumentedStruct (itemOf [⟨[builtinTag "BUILTIN_INTENSITY"], plainType "u16"⟩]) [⟨"Intensity", .u16⟩] ∧
    deriveItem (itemOf [⟨[docComment text, builtinTag "BUILTIN_INTENSITY"], plainType "u16"⟩]) = .error .err := by
  refine ⟨⟨rfl, rfl, .cons ⟨rfl, _, rfl, .builtin (d := Las.intensity) ?_⟩ .nil⟩, rfl⟩
  exact .tail _ (.head _)

/-- **C90 violated**: a field without a `#[pasture]` attribute is accepted if another macro has an attribute there that
    reads like one, here `#[serde(attribute = "x")]`. -/
theorem C90_other_macro_violated :
    deriveItem (itemOf [⟨[⟨some (.list (oneIdent "serde")
      [.nested (.nameValue (oneIdent "attribute") (.str "x"))])⟩], plainType "u16"⟩]) =
    deriveItem (itemOf [⟨[customTag "x"], plainType "u16"⟩]) ∧
    (deriveItem (itemOf [⟨[customTag "x"], plainType "u16"⟩])).toOption.isSome = true := ⟨rfl, by decide⟩

/-- **C90 violated**: a vector with its full path, `nalgebra::Vector3<f64>`, is refused. -/
theorem C90_path_violated (a : FieldAttribute) :
    deriveItem (itemOf [⟨[a], .path false false [.mk "nalgebra" .none,
      .mk "Vector3" (.angleBracketed [.type (plainType "f64")])]⟩]) = .error .err := rfl

/-- **C90 violated**: the rest of an attribute is not read: `#[pasture(BUILTIN_INTENSITY, attribute = "x")]` is accepted
    as intensity. -/
theorem C90_rest_violated (rest : List NestedMeta) :
    nameOf [⟨some (.list (oneIdent "pasture") (.nested (.path (oneIdent "BUILTIN_INTENSITY")) :: rest))⟩] =
      .ok "Intensity" := rfl

/-- A documented struct: a position, an intensity and an attribute of its own. -/
def documentedItem : Item := itemOf
  [⟨[builtinTag "BUILTIN_POSITION_3D"], vectorOf "Vector3" "f64"⟩,
   ⟨[builtinTag "BUILTIN_INTENSITY"], plainType "u16"⟩,
   ⟨[customTag "Temperature"], plainType "f32"⟩]

example : DocumentedStruct documentedItem [⟨"Position3D", .vec3f64⟩, ⟨"Intensity", .u16⟩, ⟨"Temperature", .f32⟩] ∧
    (deriveItem documentedItem).map (fun l => (l.attributes.map Member.offset, l.size)) = .ok ([0, 24, 28], 32) :=
  ⟨⟨rfl, rfl, .cons ⟨rfl, _, rfl, .builtin (d := Las.position3D) (.head _)⟩
    (.cons ⟨rfl, _, rfl, .builtin (d := Las.intensity) (.tail _ (.head _))⟩ (.cons ⟨rfl, _, rfl, .custom _⟩ .nil))⟩,
    by decide⟩

/-- The same fields with `#[derive(..)] #[repr(packed(2), C)]`. -/
def packedItem : Item := { documentedItem with
  attrs := [⟨oneIdent "derive", some (.list (oneIdent "derive") [.nested (.path (oneIdent "PointType"))])⟩,
    reprAttribute [.packedN 2, .c]] }

example : HasRepr packedItem [.packedN 2, .c] ∧ Packs [.packedN 2, .c] (some 2) ∧
    (deriveItem packedItem).map (fun l => (l.attributes.map Member.offset, l.size, l.align)) = .ok ([0, 24, 26], 30, 2) ∧
    RustStructLayout (some 2) 1 (structFields [⟨"Position3D", .vec3f64⟩, ⟨"Intensity", .u16⟩, ⟨"Temperature", .f32⟩])
      [0, 24, 26] 30 2 := by
  refine ⟨⟨[_], [], rfl, ?_⟩, ⟨by decide, ?_, ?_, by decide, ?_⟩, by decide, 30, 2, ?_, ?_, by decide, ?_⟩
  · intro a ha
    obtain rfl := List.mem_singleton.1 ha
    intro h
    injection h with _ h
    revert h
    decide
  · intro n hn
    simp at hn
  · right
    decide
  · intro m hm
    simpa using hm
  · exact .cons ⟨by decide, by decide, fun r _ h => h⟩ (.cons ⟨by decide, by decide, fun r _ h => h⟩
      (.cons ⟨by decide, by decide, fun r _ h => h⟩ (.nil _)))
  · refine ⟨by decide, ?_, .inr ⟨⟨24, 2⟩, .head _, rfl⟩⟩
    intro f hf
    simp [structFields, PrimType.toDataType, DataType.minAlignment] at hf
    rcases hf with rfl | rfl | rfl <;> decide
  · exact ⟨by decide, by decide, fun r _ h => h⟩

end Pasture.Props
