import Verif.Lemmas.PntsCodec
import Verif.Spec.Tileset

/-!
# Lemmas on 3D Tiles tilesets in JSON
-/

namespace Pasture.Tiles3d

open Spec Spec.Pnts Spec.Tileset

variable {f : F64 → F64}

/-! ## Reading objects -/

theorem object_back {es : List (String × Json)} {v : Json} (h : ReadsBack f (.object es) v) :
    ∃ es', v = .object es' ∧ (es'.map Prod.fst).Nodup ∧ (∀ k, es.lookup k = none → es'.lookup k = none) ∧
      ∀ k x, es.lookup k = some x → ∃ y, es'.lookup k = some y ∧ ReadsBack f x y := by
  cases h with
  | object _ es' hn hd hv =>
    refine ⟨es', rfl, hn, fun k hk => ?_, fun k x hx => ?_⟩
    · have := hd k
      rw [hk] at this
      cases he : es'.lookup k with
      | none => rfl
      | some y => rw [he] at this; cases this
    · have := hd k
      rw [hx] at this
      obtain ⟨y, hy⟩ := Option.isSome_iff_exists.1 this.symm
      exact ⟨y, hy, hv k x y hx hy⟩

theorem array_back {xs : List Json} {v : Json} (h : ReadsBack f (.array xs) v) :
    ∃ ys, v = .array ys ∧ List.Forall₂ (ReadsBack f) xs ys := by
  cases h with
  | array _ ys hl he =>
    refine ⟨ys, rfl, ?_⟩
    induction xs generalizing ys with
    | nil => cases ys with
      | nil => exact .nil
      | cons => cases hl
    | cons x xs ih => cases ys with
      | nil => cases hl
      | cons y ys =>
        exact .cons (he 0 x y rfl rfl) (ih ys (Nat.succ.inj hl) fun i a b ha hb => he (i + 1) a b ha hb)

theorem required_back {α : Type} {es es' : List (String × Json)} {key : String} {x : Json} {g : Json → Out α} {r : α}
    (he : ∀ k x, es.lookup k = some x → ∃ y, es'.lookup k = some y ∧ ReadsBack f x y) (hx : es.lookup key = some x)
    (hg : ∀ y, ReadsBack f x y → g y = .ok r) : required es' key g = .ok r := by
  obtain ⟨y, hy, hb⟩ := he key x hx
  unfold required
  rw [hy]
  exact hg y hb

theorem optional_back {α : Type} {es es' : List (String × Json)} {key : String} {o : Option α} {toJ : α → Json}
    {g : Json → Out α} {h : α → α} (hn : ∀ k, es.lookup k = none → es'.lookup k = none)
    (he : ∀ k x, es.lookup k = some x → ∃ y, es'.lookup k = some y ∧ ReadsBack f x y)
    (hx : es.lookup key = o.map toJ) (hnull : ∀ r, g .null ≠ .ok r)
    (hg : ∀ x, o = some x → ∀ y, ReadsBack f (toJ x) y → g y = .ok (h x)) : optional es' key g = .ok (o.map h) := by
  unfold optional
  cases o with
  | none => rw [hn key hx]; rfl
  | some x =>
    obtain ⟨y, hy, hb⟩ := he key _ hx
    have hy' := hg x rfl y hb
    rw [hy]
    cases y with
    | null => exact absurd hy' (hnull _)
    | _ => simp only [hy', bind, Except.bind, pure, Except.pure, Option.map_some]

theorem string_back {s : String} {y : Json} (h : ReadsBack f (.string s) y) : stringOfJson y = .ok s := by
  cases h
  rfl

theorem f64_back {x : F64} {y : Json} (hx : x.isFinite = true) (h : ReadsBack f (Json.ofF64 x) y) : f64OfJson y = .ok (f x) := by
  unfold Json.ofF64 at h
  rw [if_pos hx] at h
  cases h
  rfl

theorem numbers_back {xs : List F64} {y : Json} (hx : ∀ x ∈ xs, x.isFinite = true) (h : ReadsBack f (numbersToJson xs) y) :
    numbersOfJson xs.length y = .ok (xs.map f) := by
  obtain ⟨ys, rfl, hys⟩ := array_back h
  rw [List.forall₂_map_left_iff] at hys
  have hlen := hys.length_eq
  have hcheck : bailIf (decide (ys.length ≠ xs.length)) = .ok () := by
    unfold bailIf
    rw [if_neg (by simp [hlen])]
  show (bailIf (decide (ys.length ≠ xs.length))).bind (fun _ => ys.mapM fun x => orErr x.asF64) = _
  rw [hcheck]
  show ys.mapM _ = _
  clear h hlen hcheck
  induction hys with
  | nil => rfl
  | @cons x y xs ys hxy _ ih =>
    rw [List.mapM_cons, show orErr y.asF64 = Except.ok (f x) from f64_back (hx x (by simp)) hxy,
      ih fun x h => hx x (by simp [h])]
    rfl

/-- An object with one entry. -/
theorem single_back {key : String} {x v : Json} (h : ReadsBack f (.object [(key, x)]) v) :
    ∃ y, v = .object [(key, y)] ∧ ReadsBack f x y := by
  obtain ⟨es, rfl, hn, hnone, hsome⟩ := object_back h
  obtain ⟨y, hy, hb⟩ := hsome key x (by simp)
  have hkeys : ∀ e ∈ es, e.1 = key := by
    rintro ⟨k, z⟩ he
    by_contra hk
    have := hnone k (by
      have : (k == key) = false := by simpa using hk
      rw [List.lookup_cons, this]
      rfl)
    rw [lookup_of_mem hn he] at this
    cases this
  refine ⟨y, ?_, hb⟩
  match es, hn, hkeys, hy with
  | [], _, _, hy => cases hy
  | [(k, z)], _, hkeys, hy =>
    have : k = key := hkeys (k, z) (by simp)
    subst this
    simp only [List.lookup_cons, beq_self_eq_true, Option.some.injEq] at hy
    rw [hy]
  | (k, z) :: (k', z') :: es, hn, hkeys, _ =>
    exfalso
    have h1 : k = key := hkeys (k, z) (by simp)
    have h2 : k' = key := hkeys (k', z') (by simp)
    simp only [List.map_cons, List.nodup_cons, List.mem_cons, not_or] at hn
    exact hn.1.1 (h1.trans h2.symm)

theorem volume_back {v : BoundingVolume} {y : Json} (hx : ∀ x ∈ volumeNumbers v, x.isFinite = true)
    (h : ReadsBack f v.toJson y) : BoundingVolume.ofJson y = .ok (mapVolume f v) := by
  cases v with
  | region r =>
    obtain ⟨z, rfl, hz⟩ := single_back h
    have := numbers_back hx hz
    simp only [BoundingVolume.ofJson, if_true]
    rw [show numbersOfJson 6 z = _ from this]
    rfl
  | box b =>
    obtain ⟨z, rfl, hz⟩ := single_back h
    have := numbers_back hx hz
    simp only [BoundingVolume.ofJson, if_true]
    rw [if_neg (by decide), show numbersOfJson 12 z = _ from this]
    rfl
  | sphere s =>
    obtain ⟨z, rfl, hz⟩ := single_back h
    have := numbers_back hx hz
    simp only [BoundingVolume.ofJson, if_true]
    rw [if_neg (by decide), if_neg (by decide), show numbersOfJson 4 z = _ from this]
    rfl

theorem refinement_back {r : Refinement} {y : Json} (h : ReadsBack f r.toJson y) : Refinement.ofJson y = .ok r := by
  cases r <;> cases h <;> rfl

theorem lookup_optEntry {α : Type} (key k : String) (g : α → Json) (o : Option α) :
    (optEntry key g o).lookup k = if k = key then o.map g else none := by
  cases o with
  | none => simp [optEntry]
  | some x =>
    simp only [optEntry, List.lookup_cons, List.lookup_nil, Option.map_some]
    by_cases hk : k = key
    · subst hk; simp
    · have : (k == key) = false := by simpa using hk
      rw [this, if_neg hk]

theorem content_back {c : TilesetContent} {y : Json}
    (hx : ∀ v, c.boundingVolume = some v → ∀ x ∈ volumeNumbers v, x.isFinite = true)
    (h : ReadsBack f c.toJson y) : TilesetContent.ofJson y = .ok ⟨c.boundingVolume.map (mapVolume f), c.uri⟩ := by
  obtain ⟨es, rfl, hn, hnone, hsome⟩ := object_back h
  unfold TilesetContent.ofJson objectEntries
  simp only [bind, Except.bind]
  rw [optional_back (h := mapVolume f) (o := c.boundingVolume) (toJ := BoundingVolume.toJson) hnone hsome
    (by simp [List.lookup_append, lookup_optEntry, List.lookup_cons]) (fun r => by simp [BoundingVolume.ofJson])
    fun v hv y hy => volume_back (hx v hv) hy]
  dsimp only
  rw [required_back (r := c.uri) hsome (x := .string c.uri) (by simp [List.lookup_append, lookup_optEntry])
    fun y hy => string_back hy]
  rfl

theorem fields_back {t : TilesetFields} {es es' : List (String × Json)} (ht : GoodFields t)
    (hes : ∀ k, k ≠ "children" → es.lookup k = t.entries.lookup k)
    (hnone : ∀ k, es.lookup k = none → es'.lookup k = none)
    (hsome : ∀ k x, es.lookup k = some x → ∃ y, es'.lookup k = some y ∧ ReadsBack f x y) :
    TilesetFields.ofEntries es' = .ok (mapFields f t) := by
  obtain ⟨hfin, hlen⟩ := ht
  unfold fieldNumbers at hfin
  simp only [List.mem_append, List.mem_cons, List.not_mem_nil, or_false] at hfin
  unfold TilesetFields.ofEntries
  simp only [bind, Except.bind]
  rw [required_back (r := f t.geometricError) hsome (x := Json.ofF64 t.geometricError)
    (by rw [hes _ (by decide)]; simp [TilesetFields.entries])
    fun y hy => f64_back (hfin _ (.inl (.inl (.inl (.inl rfl))))) hy]
  dsimp only
  rw [optional_back (h := id) (o := t.refinement) (toJ := Refinement.toJson) hnone hsome
    (by rw [hes _ (by decide)]; simp [TilesetFields.entries, List.lookup_append, lookup_optEntry, List.lookup_cons])
    (fun r => by simp [Refinement.ofJson]) fun r _ y hy => refinement_back hy]
  dsimp only
  rw [required_back (r := mapVolume f t.boundingVolume) hsome (x := t.boundingVolume.toJson)
    (by rw [hes _ (by decide)]; simp [TilesetFields.entries, List.lookup_append, lookup_optEntry, List.lookup_cons])
    fun y hy => volume_back (fun x hx => hfin x (.inl (.inl (.inl (.inr hx))))) hy]
  dsimp only
  rw [optional_back (h := mapVolume f) (o := t.viewerRequestVolume) (toJ := BoundingVolume.toJson) hnone hsome
    (by rw [hes _ (by decide)]; simp [TilesetFields.entries, List.lookup_append, lookup_optEntry, List.lookup_cons])
    (fun r => by simp [BoundingVolume.ofJson])
    fun v hv y hy => volume_back (fun x hx => hfin x (.inl (.inl (.inr (by rw [hv]; exact hx))))) hy]
  dsimp only
  rw [optional_back (h := fun c => ⟨c.boundingVolume.map (mapVolume f), c.uri⟩) (o := t.content)
    (toJ := TilesetContent.toJson) hnone hsome
    (by rw [hes _ (by decide)]; simp [TilesetFields.entries, List.lookup_append, lookup_optEntry, List.lookup_cons])
    (fun r => by simp [TilesetContent.ofJson, objectEntries, bind, Except.bind])
    fun c hc y hy => content_back (fun v hv x hx => hfin x (.inl (.inr (by
      rw [hc]
      obtain ⟨o, u⟩ := c
      cases hv
      exact hx)))) hy]
  dsimp only
  rw [optional_back (h := fun m => m.map f) (o := t.transform) (toJ := numbersToJson) hnone hsome
    (by rw [hes _ (by decide)]; simp [TilesetFields.entries, List.lookup_append, lookup_optEntry, List.lookup_cons])
    (fun r => by simp [numbersOfJson])
    fun m hm y hy => (by
      rw [← hlen m hm]
      exact numbers_back (fun x hx => hfin x (.inr (by rw [hm]; exact hx))) hy)]
  unfold mapFields
  simp only [pure, Except.pure, Option.map_id, id]

/-! ## Tilesets -/

theorem ofJson_leaf {es : List (String × Json)} (h : es.lookup "children" = none) :
    Tileset.ofJson (.object es) = (TilesetFields.ofEntries es).bind fun fields => .ok (.mk fields []) := by
  rw [Tileset.ofJson]
  split
  · rfl
  · rename_i h'; rw [h] at h'; cases h'
  · rename_i h'; rw [h] at h'; cases h'

theorem ofJson_node {es : List (String × Json)} {xs : List Json} (h : es.lookup "children" = some (.array xs)) :
    Tileset.ofJson (.object es) = (TilesetFields.ofEntries es).bind fun fields =>
      (xs.mapM Tileset.ofJson).bind fun children => .ok (.mk fields children) := by
  rw [Tileset.ofJson]
  split
  · rename_i h'; rw [h] at h'; cases h'
  · rename_i h'
    rw [h] at h'
    cases h'
    rw [List.mapM_subtype (g := Tileset.ofJson) (fun x hx => rfl), List.unattach_attach]
    rfl
  · rename_i v hv h'; rw [h] at h'; cases h'; exact absurd rfl (hv xs)

theorem entries_children (t : TilesetFields) : t.entries.lookup "children" = none := by
  simp [TilesetFields.entries, List.lookup_append, lookup_optEntry, List.lookup_cons]

mutual

theorem tileset_back : ∀ (t : Tileset), GoodTileset t → ∀ (v : Json), ReadsBack f t.toJson v →
    Tileset.ofJson v = .ok (mapTileset f t)
  | .mk fields [], ht, v, h => by
    cases ht with
    | mk _ _ hf hc =>
      rw [Tileset.toJson] at h
      obtain ⟨es, rfl, hn, hnone, hsome⟩ := object_back h
      rw [ofJson_leaf (hnone _ (entries_children fields)), fields_back hf (fun _ _ => rfl) hnone hsome, mapTileset, mapTilesets]
      rfl
  | .mk fields (c :: cs), ht, v, h => by
    cases ht with
    | mk _ _ hf hc =>
      rw [Tileset.toJson] at h
      obtain ⟨es, rfl, hn, hnone, hsome⟩ := object_back h
      obtain ⟨y, hy, hb⟩ := hsome "children" (.array (c.toJson :: Tileset.listToJson cs)) (by
        rw [List.lookup_append, entries_children]
        simp)
      obtain ⟨ys, rfl, hys⟩ := array_back hb
      cases hys with
      | @cons _ y _ ys h1 h2 =>
        rw [ofJson_node hy, fields_back hf (fun k hk => by
          rw [List.lookup_append]
          have : (k == "children") = false := by simpa using hk
          simp [List.lookup_cons, this]) hnone hsome, mapTileset, mapTilesets]
        simp only [Except.bind]
        rw [List.mapM_cons, tileset_back c (hc c (by simp)) y h1, tilesets_back cs (fun d hd => hc d (by simp [hd])) ys h2]
        rfl

theorem tilesets_back : ∀ (ts : List Tileset), (∀ t ∈ ts, GoodTileset t) → ∀ (vs : List Json),
    List.Forall₂ (ReadsBack f) (Tileset.listToJson ts) vs → vs.mapM Tileset.ofJson = .ok (mapTilesets f ts)
  | [], _, vs, h => by
    rw [Tileset.listToJson] at h
    cases h
    rw [mapTilesets]
    rfl
  | t :: ts, ht, vs, h => by
    rw [Tileset.listToJson] at h
    cases h with
    | @cons _ y _ ys h1 h2 =>
      rw [mapTilesets, List.mapM_cons, tileset_back t (ht t (by simp)) y h1,
        tilesets_back ts (fun d hd => ht d (by simp [hd])) ys h2]
      rfl

end

/-! ## Tables -/

/-- The values of an object, read one by one. -/
theorem entries_back {β : Type} {P : Json → Out β} {es : List (String × Json)} {v : Json}
    (h : ReadsBack f (.object es) v)
    (hok : ∀ key x y, es.lookup key = some x → ReadsBack f x y → ∃ b, P y = .ok b) :
    ∃ es' t, v = .object es' ∧ (es'.mapM fun (k, v) => do let v ← P v; pure (k, v)) = .ok t ∧ (t.map Prod.fst).Nodup ∧
      (∀ key, (es.lookup key).isSome = (t.lookup key).isSome) ∧
      ∀ key x b, es.lookup key = some x → t.lookup key = some b → ∃ y, ReadsBack f x y ∧ P y = .ok b := by
  cases h with
  | object _ es' hn hdom hval =>
    have hent : ∀ e ∈ es', ∃ b, P e.2 = .ok b := by
      rintro ⟨key, y⟩ he
      have hl := lookup_of_mem hn he
      have hd := hdom key
      rw [hl] at hd
      obtain ⟨x, hx⟩ := Option.isSome_iff_exists.1 hd
      exact hok key x y hx (hval key x y hx hl)
    refine ⟨es', ?_⟩
    have key : ∀ (l : List (String × Json)), (∀ e ∈ l, ∃ b, P e.2 = .ok b) →
        ∃ t, (l.mapM fun (k, v) => do let v ← P v; pure (k, v)) = .ok t ∧ t.map Prod.fst = l.map Prod.fst ∧
          (∀ k, (l.lookup k).isSome = (t.lookup k).isSome) ∧
          ∀ k y b, l.lookup k = some y → t.lookup k = some b → P y = .ok b := by
      intro l
      induction l with
      | nil => intro _; exact ⟨[], rfl, rfl, fun _ => rfl, fun k y b h => by cases h⟩
      | cons e l ih =>
        intro hl
        obtain ⟨k₀, y₀⟩ := e
        obtain ⟨b₀, hb₀⟩ := hl (k₀, y₀) (by simp)
        obtain ⟨t, h1, h2, h3, h4⟩ := ih fun e he => hl e (by simp [he])
        refine ⟨(k₀, b₀) :: t, ?_, by simp [h2], ?_, ?_⟩
        · rw [List.mapM_cons, h1]
          show ((P y₀).bind _).bind _ = _
          rw [show P y₀ = .ok b₀ from hb₀]
          rfl
        · intro k
          rw [List.lookup_cons, List.lookup_cons]
          cases hk : k == k₀
          · exact h3 k
          · rfl
        · intro k y b hy hb
          rw [List.lookup_cons] at hy hb
          cases hk : k == k₀
          · rw [hk] at hy hb
            exact h4 k y b hy hb
          · rw [hk] at hy hb
            cases hy
            cases hb
            exact hb₀
    obtain ⟨t, h1, h2, h3, h4⟩ := key es' hent
    refine ⟨t, rfl, h1, by rw [h2]; exact hn, fun k => (hdom k).trans (h3 k), ?_⟩
    intro k x b hx hb
    have hd := hdom k
    rw [hx] at hd
    obtain ⟨y, hy⟩ := Option.isSome_iff_exists.1 hd.symm
    exact ⟨y, hval k x y hx hy, h4 k y b hy hb⟩

theorem reference_back {o : Nat} {c t : String} {y : Json} (ho : o < 2 ^ 64)
    (h : ReadsBack f (BatchEntry.toJson (.reference o c t)) y) : BatchEntry.ofJson y = .ok (.reference o c t) := by
  obtain ⟨es, rfl, _, _, hs⟩ := object_back h
  obtain ⟨y1, h1, b1⟩ := hs "byteOffset" (.int o) (by simp)
  obtain ⟨y2, h2, b2⟩ := hs "componentType" (.string c) (by simp [List.lookup_cons])
  obtain ⟨y3, h3, b3⟩ := hs "type" (.string t) (by simp [List.lookup_cons])
  cases b1
  cases b2
  cases b3
  have ho' : Json.asU64 (.int o) = some o := by
    unfold Json.asU64
    simp only
    rw [if_pos (by omega)]
    simp
  unfold BatchEntry.ofJson batchReferenceOfJson
  simp only [h1, h2, h3, Option.bind_some, ho', orErr, Json.asString, bind, Except.bind, pure, Except.pure]

theorem batch_back {e : BatchEntry} {y : Json} (he : ∀ o c t, e = .reference o c t → o < 2 ^ 64)
    (h : ReadsBack f e.toJson y) : ∃ e', BatchEntry.ofJson y = .ok e' ∧ SameEntry f e e' := by
  cases e with
  | arrayData vs =>
    obtain ⟨ys, rfl, _⟩ := array_back h
    exact ⟨_, rfl, .arrayData _ _ h⟩
  | reference o c t => exact ⟨_, reference_back (he o c t rfl) h, .reference o c t⟩

theorem feature_back {e : FeatureValue} {y : Json} (he : ∀ o c, e = .reference o c → o < 2 ^ 64) (hu : Unambiguous e)
    (h : ReadsBack f e.toJson y) : ∃ e', FeatureValue.ofJson y = .ok e' ∧ SameFeature f e e' := by
  cases e with
  | array vs =>
    obtain ⟨ys, rfl, _⟩ := array_back h
    exact ⟨_, rfl, .array _ _ h⟩
  | single v =>
    refine ⟨.single y, ?_, .single _ _ h⟩
    cases v with
    | array => exact absurd hu id
    | object es =>
      obtain ⟨es', rfl, _, hn, _⟩ := object_back h
      simp only [FeatureValue.ofJson, hn _ hu, Option.isSome_none, Bool.false_eq_true, if_false]
    | _ => cases h; rfl
  | reference o c =>
    have ho := he o c rfl
    have ho' : Json.asU64 (.int o) = some o := by
      unfold Json.asU64
      simp only
      rw [if_pos (by omega)]
      simp
    cases c with
    | none =>
      obtain ⟨es, rfl, _, hn, hs⟩ := object_back h
      obtain ⟨y1, h1, b1⟩ := hs "byteOffset" (.int o) (by simp)
      have h2 := hn "componentType" (by simp [List.lookup_cons])
      cases b1
      refine ⟨_, ?_, .reference o none⟩
      simp only [FeatureValue.ofJson, referenceOfJson, h1, h2, Option.isSome_some, if_true, Option.bind_some, ho', orErr,
        bind, Except.bind, pure, Except.pure]
    | some c =>
      obtain ⟨es, rfl, _, hn, hs⟩ := object_back h
      obtain ⟨y1, h1, b1⟩ := hs "byteOffset" (.int o) (by simp)
      obtain ⟨y2, h2, b2⟩ := hs "componentType" (.string c) (by simp [List.lookup_cons])
      cases b1
      cases b2
      refine ⟨_, ?_, .reference o (some c)⟩
      simp only [FeatureValue.ofJson, referenceOfJson, h1, h2, Option.isSome_some, if_true, Option.bind_some, ho', orErr,
        bind, Except.bind, pure, Except.pure]

theorem header_padded (J : JsonText) (v : Json) (p : Nat) :
    (J.toText v).length ≤ (jsonHeader J v p).length ∧ p + (jsonHeader J v p).length = alignTo (p + (J.toText v).length) 8 := by
  have := le_alignTo (p + (J.toText v).length) 8
  unfold jsonHeader
  simp only [List.length_append, List.length_replicate]
  omega

/-- A header is read again with any size between that of the text and that of the text with the padding. -/
theorem header_back {J : JsonText} (hJ : Faithful J f) {v : Json} (hv : Valid v) (hd : depth v ≤ 127) (pre post : Bytes)
    (p size : Nat) (h1 : (J.toText v).length ≤ size) (h2 : size ≤ (jsonHeader J v p).length) :
    ∃ v', readJsonHeader J (pre ++ jsonHeader J v p ++ post) pre.length size = .ok v' ∧ ReadsBack f v v' := by
  obtain ⟨v', g1, g2⟩ := hJ v (size - (J.toText v).length) hv hd
  refine ⟨v', ?_, g2⟩
  unfold readJsonHeader readAt
  rw [if_pos (by simp only [List.length_append]; omega)]
  have : ((pre ++ jsonHeader J v p ++ post).drop pre.length).take size =
      J.toText v ++ List.replicate (size - (J.toText v).length) 0x20#8 := by
    rw [List.append_assoc, List.drop_left, List.take_append_of_le_length h2]
    unfold jsonHeader at h2 ⊢
    simp only [List.length_append, List.length_replicate] at h2
    rw [List.take_append, List.take_of_length_le h1, List.take_replicate]
    congr 2
    omega
  show (orErr (J.fromText _)) = _
  rw [this, g1]
  rfl

/-- The reader is then at the next multiple of 8. -/
theorem header_end {t h p size : Nat} (h1 : t ≤ size) (h2 : size ≤ h) (h3 : p + h = alignTo (p + t) 8) :
    size + (alignTo (p + size) 8 - (p + size)) = h := by
  have e : alignTo (p + size) 8 = alignTo (p + t) 8 := by
    apply Nat.le_antisymm
    · exact alignTo_least _ _ _ (by omega) (dvd_alignTo _ _ (by omega)) (by omega)
    · exact alignTo_least _ _ _ (by omega) (dvd_alignTo _ _ (by omega)) (Nat.le_trans (by omega) (le_alignTo _ _))
  rw [e]
  omega

theorem batch_json {t : BatchTable} (ht : GoodBatch t) : Valid (.object (t.map fun (k, v) => (k, v.toJson))) ∧
    depth (.object (t.map fun (k, v) => (k, v.toJson))) ≤ 127 := by
  constructor
  · refine .object _ (by rw [List.map_map]; exact ht.1) ?_
    intro e he
    obtain ⟨⟨k, x⟩, hx, rfl⟩ := List.mem_map.1 he
    have := ht.2 _ hx
    cases x with
    | arrayData vs => exact .array _ fun v hv => (this v hv).1
    | reference o c s =>
      refine .object _ (by simp) ?_
      intro e he
      simp only [List.mem_cons, List.not_mem_nil, or_false] at he
      rcases he with rfl | rfl | rfl
      · exact .int _ (by omega) (by have : o < 2 ^ 64 := this; omega)
      · exact .string _
      · exact .string _
  · rw [depth]
    refine Nat.succ_le_succ (depthEntries_le (n := 126) _ ?_)
    intro e he
    obtain ⟨⟨k, x⟩, hx, rfl⟩ := List.mem_map.1 he
    have := ht.2 _ hx
    cases x with
    | arrayData vs =>
      show depth (.array vs) ≤ 126
      rw [depth]
      exact Nat.succ_le_succ (depthList_le (n := 125) _ fun v hv => (this v hv).2)
    | reference o c s => simp [BatchEntry.toJson, depth, depthEntries]

theorem features_json {t : FeatureTable} (ht : GoodFeatures t) : Valid (.object (t.map fun (k, v) => (k, v.toJson))) ∧
    depth (.object (t.map fun (k, v) => (k, v.toJson))) ≤ 127 := by
  constructor
  · refine .object _ (by rw [List.map_map]; exact ht.1) ?_
    intro e he
    obtain ⟨⟨k, x⟩, hx, rfl⟩ := List.mem_map.1 he
    have := ht.2 _ hx
    cases x with
    | single v => exact this.1
    | array vs => exact .array _ fun v hv => (this v hv).1
    | reference o c =>
      have hi : Valid (.int o) := .int _ (by omega) (by have : o < 2 ^ 64 := this; omega)
      cases c with
      | none =>
        refine .object _ (by simp) ?_
        intro e he
        simp only [List.mem_cons, List.not_mem_nil, or_false] at he
        subst he
        exact hi
      | some c =>
        refine .object _ (by simp) ?_
        intro e he
        simp only [List.mem_cons, List.not_mem_nil, or_false] at he
        rcases he with rfl | rfl
        · exact hi
        · exact .string _
  · rw [depth]
    refine Nat.succ_le_succ (depthEntries_le (n := 126) _ ?_)
    intro e he
    obtain ⟨⟨k, x⟩, hx, rfl⟩ := List.mem_map.1 he
    have := ht.2 _ hx
    cases x with
    | single v => exact this.2
    | array vs =>
      show depth (.array vs) ≤ 126
      rw [depth]
      exact Nat.succ_le_succ (depthList_le (n := 125) _ fun v hv => (this v hv).2)
    | reference o c => cases c <;> simp [FeatureValue.toJson, depth, depthEntries]

/-! ## The JSON of a tileset -/

theorem ofF64_valid (x : F64) : Valid (Json.ofF64 x) := by
  unfold Json.ofF64
  split
  · exact .float _ ‹_›
  · exact .null

theorem numbers_json (xs : List F64) : Valid (numbersToJson xs) ∧ depth (numbersToJson xs) = 1 := by
  constructor
  · refine .array _ ?_
    intro x hx
    obtain ⟨y, _, rfl⟩ := List.mem_map.1 hx
    exact ofF64_valid y
  · unfold numbersToJson
    rw [depth, Nat.le_zero.1 (depthList_le (n := 0) _ ?_)]
    intro x hx
    obtain ⟨y, _, rfl⟩ := List.mem_map.1 hx
    rw [depth_ofF64]

theorem volume_json (v : BoundingVolume) : Valid v.toJson ∧ depth v.toJson = 2 := by
  cases v
  all_goals
    refine ⟨.object _ (by simp) ?_, ?_⟩
    · intro e he
      rw [List.mem_singleton] at he
      subst he
      exact (numbers_json _).1
    · simp only [BoundingVolume.toJson, depth, depthEntries, (numbers_json _).2]
      rfl

theorem content_json (c : TilesetContent) : Valid c.toJson ∧ depth c.toJson ≤ 3 := by
  obtain ⟨v, u⟩ := c
  cases v with
  | none =>
    refine ⟨.object _ (by simp [optEntry]) ?_, ?_⟩
    · intro e he
      simp only [optEntry, List.nil_append, List.mem_singleton] at he
      subst he
      exact .string _
    · simp [TilesetContent.toJson, optEntry, depth, depthEntries]
  | some v =>
    refine ⟨.object _ (by simp [optEntry]) ?_, ?_⟩
    · intro e he
      simp only [optEntry, List.cons_append, List.nil_append, List.mem_cons, List.not_mem_nil, or_false] at he
      rcases he with rfl | rfl
      · exact (volume_json v).1
      · exact .string _
    · simp [TilesetContent.toJson, optEntry, depth, depthEntries, (volume_json v).2]

theorem mem_optEntry {α : Type} {key : String} {g : α → Json} {o : Option α} {e : String × Json}
    (h : e ∈ optEntry key g o) : ∃ x, e = (key, g x) := by
  cases o with
  | none => cases h
  | some x => exact ⟨x, List.mem_singleton.1 h⟩

theorem optEntry_keys {α : Type} (key : String) (g : α → Json) (o : Option α) :
    ((optEntry key g o).map Prod.fst).Sublist [key] := by
  cases o with
  | none => exact List.nil_sublist _
  | some x => exact List.Sublist.refl _

theorem entries_keys (t : TilesetFields) : (t.entries.map Prod.fst).Sublist
    ["geometricError", "refine", "boundingVolume", "viewerRequestVolume", "content", "transform"] := by
  unfold TilesetFields.entries
  simp only [List.map_append]
  exact ((((((List.Sublist.refl ["geometricError"]).append (optEntry_keys "refine" _ _)).append
    (List.Sublist.refl ["boundingVolume"])).append (optEntry_keys "viewerRequestVolume" _ _)).append
    (optEntry_keys "content" _ _)).append (optEntry_keys "transform" _ _))

theorem entries_json (t : TilesetFields) : ∀ e ∈ t.entries, Valid e.2 ∧ depth e.2 ≤ 3 := by
  intro e he
  unfold TilesetFields.entries at he
  simp only [List.mem_append, List.mem_singleton] at he
  rcases he with ((((rfl | he) | rfl) | he) | he) | he
  · exact ⟨ofF64_valid _, by rw [depth_ofF64]; omega⟩
  · obtain ⟨x, rfl⟩ := mem_optEntry he
    refine ⟨by cases x <;> exact .string _, ?_⟩
    cases x <;> simp [Refinement.toJson, depth]
  · exact ⟨(volume_json _).1, by rw [(volume_json _).2]; omega⟩
  · obtain ⟨x, rfl⟩ := mem_optEntry he
    exact ⟨(volume_json _).1, by rw [(volume_json _).2]; omega⟩
  · obtain ⟨x, rfl⟩ := mem_optEntry he
    exact content_json x
  · obtain ⟨x, rfl⟩ := mem_optEntry he
    exact ⟨(numbers_json _).1, by rw [(numbers_json _).2]; omega⟩

theorem depthEntries_append (a b : List (String × Json)) :
    depthEntries (a ++ b) = max (depthEntries a) (depthEntries b) := by
  induction a with
  | nil => simp [depthEntries]
  | cons e a ih =>
    obtain ⟨k, x⟩ := e
    rw [List.cons_append, depthEntries, depthEntries, ih]
    show max _ (max _ _) = max (max _ _) _
    omega

theorem depth_mem {e : String × Json} {es : List (String × Json)} (h : e ∈ es) : depth e.2 ≤ depthEntries es := by
  induction es with
  | nil => cases h
  | cons e' es ih =>
    obtain ⟨k, x⟩ := e'
    rw [depthEntries]
    show _ ≤ max _ _
    rcases List.mem_cons.1 h with rfl | h
    · exact Nat.le_max_left _ _
    · exact Nat.le_trans (ih h) (Nat.le_max_right _ _)

theorem entries_depth (t : TilesetFields) : 2 ≤ depthEntries t.entries ∧ depthEntries t.entries ≤ 3 := by
  refine ⟨?_, depthEntries_le _ fun e he => (entries_json t e he).2⟩
  have : ("boundingVolume", t.boundingVolume.toJson) ∈ t.entries := by
    unfold TilesetFields.entries
    simp
  have := depth_mem this
  rwa [(volume_json _).2] at this

mutual

theorem tileset_json : ∀ (t : Tileset), Valid t.toJson ∧ 2 * levels t + 3 ≤ depth t.toJson ∧ depth t.toJson ≤ 2 * levels t + 4
  | .mk fields [] => by
    have h := entries_depth fields
    rw [Tileset.toJson, levels, levelsList, depth]
    refine ⟨.object _ ((entries_keys fields).nodup (by decide)) fun e he => (entries_json fields e he).1, ?_, ?_⟩ <;> omega
  | .mk fields (c :: cs) => by
    have h := entries_depth fields
    obtain ⟨h1, h2, h3⟩ := tileset_json c
    obtain ⟨h4, h5⟩ := tilesets_json cs
    rw [Tileset.toJson, levels, levelsList, depth, depthEntries_append, depthEntries, depthEntries, depth, depthList]
    change _ ∧ 2 * max _ _ + 3 ≤ max _ (max (max _ _ + 1) 0) + 1 ∧ max _ (max (max _ _ + 1) 0) + 1 ≤ 2 * max _ _ + 4
    refine ⟨.object _ ?_ ?_, ?_, ?_⟩
    · rw [List.map_append]
      exact ((entries_keys fields).append (List.Sublist.refl ["children"])).nodup (by decide)
    · intro e he
      rcases List.mem_append.1 he with he | he
      · exact (entries_json fields e he).1
      · rw [List.mem_singleton] at he
        subst he
        refine .array _ ?_
        intro x hx
        rcases List.mem_cons.1 hx with rfl | hx
        · exact h1
        · exact h4 x hx
    · rcases h5 with ⟨h5, h6⟩ | ⟨h5, h6, h7⟩ <;> omega
    · rcases h5 with ⟨h5, h6⟩ | ⟨h5, h6, h7⟩ <;> omega

theorem tilesets_json : ∀ (ts : List Tileset), (∀ v ∈ Tileset.listToJson ts, Valid v) ∧
    ((levelsList ts = 0 ∧ depthList (Tileset.listToJson ts) = 0) ∨ (1 ≤ levelsList ts ∧
      2 * levelsList ts + 1 ≤ depthList (Tileset.listToJson ts) ∧ depthList (Tileset.listToJson ts) ≤ 2 * levelsList ts + 2))
  | [] => by
    rw [Tileset.listToJson, levelsList, depthList]
    exact ⟨fun v hv => (List.not_mem_nil hv).elim, .inl ⟨rfl, rfl⟩⟩
  | t :: ts => by
    obtain ⟨h1, h2, h3⟩ := tileset_json t
    obtain ⟨h4, h5⟩ := tilesets_json ts
    rw [Tileset.listToJson, levelsList, depthList]
    change _ ∧ ((max _ _ = 0 ∧ max _ _ = 0) ∨ 1 ≤ max _ _ ∧ 2 * max _ _ + 1 ≤ max _ _ ∧ max _ _ ≤ 2 * max _ _ + 2)
    refine ⟨?_, ?_⟩
    · intro v hv
      rcases List.mem_cons.1 hv with rfl | hv
      · exact h1
      · exact h4 v hv
    · right
      rcases h5 with ⟨h5, h6⟩ | ⟨h5, h6, h7⟩ <;> omega

end

theorem asset_json (a : TilesetAssetInfo) : Valid a.toJson ∧ depth a.toJson ≤ 1 := by
  obtain ⟨v, w⟩ := a
  cases w with
  | none =>
    refine ⟨.object _ (by simp [optEntry]) ?_, by simp [TilesetAssetInfo.toJson, optEntry, depth, depthEntries]⟩
    intro e he
    simp only [optEntry, List.append_nil, List.mem_singleton] at he
    subst he
    exact .string _
  | some w =>
    refine ⟨.object _ (by simp [optEntry]) ?_, by simp [TilesetAssetInfo.toJson, optEntry, depth, depthEntries]⟩
    intro e he
    simp only [optEntry, List.cons_append, List.nil_append, List.mem_cons, List.not_mem_nil, or_false] at he
    rcases he with rfl | rfl <;> exact .string _

/-- The JSON of the properties. -/
def propertiesJson : Option (List (String × TilesetProperty)) → Json
  | none => .null
  | some ps => .object (ps.map fun (k, p) => (k, p.toJson))

theorem properties_json {o : Option (List (String × TilesetProperty))} (h : ∀ ps, o = some ps → (ps.map Prod.fst).Nodup) :
    Valid (propertiesJson o) ∧ depth (propertiesJson o) ≤ 2 := by
  cases o with
  | none => exact ⟨.null, by simp [propertiesJson, depth]⟩
  | some ps =>
    refine ⟨.object _ (by rw [List.map_map]; exact h ps rfl) ?_, ?_⟩
    · intro e he
      obtain ⟨⟨k, p⟩, _, rfl⟩ := List.mem_map.1 he
      refine .object _ (by simp) ?_
      intro e he
      simp only [List.mem_cons, List.not_mem_nil, or_false] at he
      rcases he with rfl | rfl <;> exact ofF64_valid _
    · unfold propertiesJson
      rw [depth]
      refine Nat.succ_le_succ (depthEntries_le (n := 1) _ ?_)
      intro e he
      obtain ⟨⟨k, p⟩, _, rfl⟩ := List.mem_map.1 he
      simp [TilesetProperty.toJson, depth, depthEntries, depth_ofF64]

theorem root_entries (t : RootTileset) : t.toJson = .object [("asset", t.asset.toJson),
    ("properties", propertiesJson t.properties), ("geometricError", Json.ofF64 t.geometricError), ("root", t.root.toJson)] := by
  unfold RootTileset.toJson propertiesJson
  cases t.properties <;> rfl

theorem root_json {t : RootTileset} (h : ∀ ps, t.properties = some ps → (ps.map Prod.fst).Nodup) :
    Valid t.toJson ∧ 2 * levels t.root + 4 ≤ depth t.toJson ∧ depth t.toJson ≤ 2 * levels t.root + 5 := by
  obtain ⟨a1, a2⟩ := asset_json t.asset
  obtain ⟨p1, p2⟩ := properties_json h
  obtain ⟨t1, t2, t3⟩ := tileset_json t.root
  rw [root_entries]
  refine ⟨.object _ (by simp) ?_, ?_⟩
  · intro e he
    simp only [List.mem_cons, List.not_mem_nil, or_false] at he
    rcases he with rfl | rfl | rfl | rfl
    · exact a1
    · exact p1
    · exact ofF64_valid _
    · exact t1
  · simp only [depth, depthEntries, depth_ofF64]
    change _ ≤ max _ (max _ (max _ (max _ _))) + 1 ∧ max _ (max _ (max _ (max _ _))) + 1 ≤ _
    omega

theorem property_back {p : TilesetProperty} {y : Json} (h1 : p.minimum.isFinite = true) (h2 : p.maximum.isFinite = true)
    (h : ReadsBack f p.toJson y) : TilesetProperty.ofJson y = .ok ⟨f p.minimum, f p.maximum⟩ := by
  obtain ⟨es, rfl, _, _, hsome⟩ := object_back h
  unfold TilesetProperty.ofJson objectEntries
  simp only [bind, Except.bind]
  rw [required_back (r := f p.minimum) hsome (x := Json.ofF64 p.minimum) (by simp) fun y hy => f64_back h1 hy]
  dsimp only
  rw [required_back (r := f p.maximum) hsome (x := Json.ofF64 p.maximum) (by simp [List.lookup_cons]) fun y hy => f64_back h2 hy]
  rfl

theorem asset_back {a : TilesetAssetInfo} {y : Json} (h : ReadsBack f a.toJson y) : TilesetAssetInfo.ofJson y = .ok a := by
  obtain ⟨es, rfl, _, hnone, hsome⟩ := object_back h
  unfold TilesetAssetInfo.ofJson objectEntries
  simp only [bind, Except.bind]
  rw [required_back (r := a.version) hsome (x := .string a.version) (by simp) fun y hy => string_back hy]
  dsimp only
  rw [optional_back (h := id) (o := a.tilesetVersion) (toJ := Json.string) hnone hsome
    (by simp [lookup_optEntry, List.lookup_cons]) (fun r => by simp [stringOfJson, Json.asString, orErr])
    fun s _ y hy => string_back hy]
  simp only [pure, Except.pure, Option.map_id, id]

theorem properties_back {ps : List (String × TilesetProperty)} {y : Json}
    (hp : ∀ p ∈ ps, p.2.minimum.isFinite = true ∧ p.2.maximum.isFinite = true)
    (h : ReadsBack f (propertiesJson (some ps)) y) : ∃ qs, propertiesOfJson y = .ok qs ∧
      ∀ k, qs.lookup k = (ps.lookup k).map fun p => ⟨f p.minimum, f p.maximum⟩ := by
  have hl : ∀ k, (ps.map fun (k, p) => (k, p.toJson)).lookup k = (ps.lookup k).map TilesetProperty.toJson :=
    fun k => lookup_map_snd TilesetProperty.toJson ps k
  obtain ⟨es, qs, rfl, h1, h2, h3, h4⟩ := entries_back (P := TilesetProperty.ofJson) h (by
    intro key x y hx hxy
    rw [hl] at hx
    obtain ⟨p, hp', rfl⟩ := Option.map_eq_some_iff.1 hx
    obtain ⟨g1, g2⟩ := hp _ (mem_of_lookup hp')
    exact ⟨_, property_back g1 g2 hxy⟩)
  refine ⟨qs, h1, ?_⟩
  intro k
  have hd := h3 k
  rw [hl] at hd
  cases hp' : ps.lookup k with
  | none =>
    rw [hp'] at hd
    cases hq : qs.lookup k with
    | none => rfl
    | some q => rw [hq] at hd; cases hd
  | some p =>
    rw [hp'] at hd
    obtain ⟨q, hq⟩ := Option.isSome_iff_exists.1 hd.symm
    obtain ⟨y, hy, hqy⟩ := h4 k _ q (by rw [hl, hp']; rfl) hq
    obtain ⟨g1, g2⟩ := hp _ (mem_of_lookup hp')
    rw [property_back g1 g2 hy] at hqy
    cases hqy
    rw [hq]
    rfl

theorem root_back {t : RootTileset} (ht : GoodRoot t) {y : Json} (h : ReadsBack f t.toJson y) :
    ∃ t', RootTileset.ofJson y = .ok t' ∧ t'.asset = t.asset ∧ SameProperties f t.properties t'.properties ∧
      t'.geometricError = f t.geometricError ∧ t'.root = mapTileset f t.root := by
  rw [root_entries] at h
  obtain ⟨es, rfl, _, hnone, hsome⟩ := object_back h
  have hprops : ∃ o, optional es "properties" propertiesOfJson = .ok o ∧ SameProperties f t.properties o := by
    obtain ⟨z, hz, hb⟩ := hsome "properties" (propertiesJson t.properties) (by simp [List.lookup_cons])
    unfold optional
    rw [hz]
    cases hp : t.properties with
    | none =>
      rw [hp] at hb
      cases hb
      exact ⟨none, rfl, trivial⟩
    | some ps =>
      rw [hp] at hb
      obtain ⟨qs, h1, h2⟩ := properties_back (ht.properties ps hp).2 hb
      refine ⟨some qs, ?_, h2⟩
      obtain ⟨es', rfl, _⟩ := object_back hb
      simp only [h1, bind, Except.bind, pure, Except.pure]
  obtain ⟨o, ho, hs⟩ := hprops
  refine ⟨⟨t.asset, o, f t.geometricError, mapTileset f t.root⟩, ?_, rfl, hs, rfl, rfl⟩
  unfold RootTileset.ofJson objectEntries
  simp only [bind, Except.bind]
  rw [required_back (r := t.asset) hsome (x := t.asset.toJson) (by simp) fun y hy => asset_back hy]
  dsimp only
  rw [ho]
  dsimp only
  rw [required_back (r := f t.geometricError) hsome (x := Json.ofF64 t.geometricError) (by simp [List.lookup_cons])
    fun y hy => f64_back ht.error hy]
  dsimp only
  rw [required_back (r := mapTileset f t.root) hsome (x := t.root.toJson) (by simp [List.lookup_cons])
    fun y hy => tileset_back t.root ht.root y hy]
  rfl

end Pasture.Tiles3d
