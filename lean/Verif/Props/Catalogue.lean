import Verif.SpecCatalogue
import Verif.Lemmas.Utf8
import Verif.Props.Lists
/-
The lists as the package shows them to JavaScript (C77).
-/
namespace AdBlock
open Spec

/-- the string of ASCII bytes -/
def asciiText (b : Bytes) : Chars := b.map fun c => Char.ofNat c.toNat

theorem ascii_encode : ∀ c : Byte, c < 128 → String.utf8EncodeChar (Char.ofNat c.toNat) = [c] := byte_forall (by decide +kernel)

theorem utf8_asciiText {b : Bytes} (h : ∀ c ∈ b, c < 128) : utf8 (asciiText b) = b := by
  induction b with
  | nil => rfl
  | cons c b ih =>
    have := ih fun x hx => h x (by simp [hx])
    unfold asciiText at this ⊢
    rw [List.map_cons, utf8_cons, ascii_encode c (h c (by simp)), this]
    rfl

theorem takeWhile_no_nul {b : Bytes} (h : 0 ∉ b) : b.takeWhile (· ≠ 0) = b := by
  induction b with
  | nil => rfl
  | cons c b ih =>
    have hc : c ≠ 0 := fun e => h (by simp [e])
    rw [List.takeWhile_cons, if_pos (by simpa using hc), ih fun e => h (by simp [e])]

/-- a string whose UTF-8 form has no NUL gets through -/
theorem jsFromString_utf8 {s : Chars} (h : 0 ∉ utf8 s) : jsFromString (utf8 s) = s := by
  unfold jsFromString
  rw [takeWhile_no_nul h, fromUtf8_utf8]
  rfl

theorem jsFromString_ascii {b : Bytes} (h : b.all (fun c => decide (c < 128 ∧ c ≠ 0)) = true) : utf8 (jsFromString b) = b := by
  have h' : ∀ c ∈ b, c < 128 ∧ c ≠ 0 := fun c hc => by simpa using List.all_eq_true.1 h c hc
  have e := utf8_asciiText fun c hc => (h' c hc).1
  have h0 : 0 ∉ utf8 (asciiText b) := by rw [e]; exact fun hm => (h' 0 hm).2 rfl
  have := jsFromString_utf8 h0
  rw [e] at this
  rw [this, e]

/-- the titles that are not in ASCII -/
def otherTitles : List Chars :=
  [ cs%"CHN: EasyList China (中文)", cs%"JPN: ABP Japanese filters (日本用フィルタ)", cs%"RUS: BitBlock List (Дополнительная подписка фильтров)",
    cs%"RUS: RU AdList (Дополнительная региональная подписка)" ]

theorem texts_ascii : ∀ l ∈ allLists, ([l.uuid, l.url, l.supportUrl, l.componentId, l.base64PublicKey] ++ l.langs).all
    (fun b => b.all fun c => decide (c < 128 ∧ c ≠ 0)) = true := by decide +kernel

theorem titles_ascii : ∀ l ∈ allLists, (l.title.all fun c => decide (c < 128 ∧ c ≠ 0)) = true ∨ l.title ∈ otherTitles.map utf8 := by
  decide +kernel

theorem otherTitles_nul : ∀ s ∈ otherTitles, 0 ∉ utf8 s := by decide +kernel

theorem jsFromString_title {l : FilterList} (hl : l ∈ allLists) : utf8 (jsFromString l.title) = l.title := by
  rcases titles_ascii l hl with h | h
  · exact jsFromString_ascii h
  · obtain ⟨s, hs, e⟩ := List.mem_map.1 h
    rw [← e, jsFromString_utf8 (otherTitles_nul s hs)]

theorem jsFromString_field {l : FilterList} (hl : l ∈ allLists) {b : Bytes}
    (hb : b ∈ [l.uuid, l.url, l.supportUrl, l.componentId, l.base64PublicKey] ++ l.langs) : utf8 (jsFromString b) = b :=
  jsFromString_ascii (List.all_eq_true.1 (texts_ascii l hl) b hb)

theorem get_langs (l : FilterList) : (listObject l).get cs%"langs" = if l.langs = [] then none else some (.texts (l.langs.map jsFromString)) := by
  unfold listObject
  by_cases h : l.langs = []
  · rw [if_neg (by simp [h]), if_pos h]
    rfl
  · rw [if_pos (List.length_pos_iff.2 h), if_neg h]
    rfl

/-- **C77**: the objects of `adBlockLists` say about each list what is in the tables. -/
theorem C77_objects {l : FilterList} (hl : l ∈ allLists) : Shows (listObject l) l where
  texts name bytes h := by
    simp only [listProperties, List.mem_cons, List.not_mem_nil, or_false, Prod.mk.injEq] at h
    have f := @jsFromString_field l hl
    rcases h with ⟨rfl, rfl⟩ | ⟨rfl, rfl⟩ | ⟨rfl, rfl⟩ | ⟨rfl, rfl⟩ | ⟨rfl, rfl⟩ | ⟨rfl, rfl⟩
    · exact ⟨_, rfl, f (by simp)⟩
    · exact ⟨_, rfl, f (by simp)⟩
    · exact ⟨_, rfl, jsFromString_title hl⟩
    · exact ⟨_, rfl, f (by simp)⟩
    · exact ⟨_, rfl, f (by simp)⟩
    · exact ⟨_, rfl, f (by simp)⟩
  noLanguage h := by rw [get_langs, if_pos h]
  languages h := by
    refine ⟨l.langs.map jsFromString, by rw [get_langs, if_neg h], ?_⟩
    rw [List.map_map]
    conv => rhs; rw [← List.map_id l.langs]
    exact List.map_congr_left fun b hb => jsFromString_field hl (by simp [hb])
  noOther name h := by
    unfold JsObject.get at h
    cases hf : (listObject l).find? (fun p => p.1 == name) with
    | none => rw [hf] at h; exact absurd rfl h
    | some p =>
      have h1 := List.find?_some hf
      have h2 := List.mem_of_find?_eq_some hf
      simp only [beq_iff_eq] at h1
      subst h1
      unfold listObject at h2
      rw [List.mem_append] at h2
      rcases h2 with h2 | h2
      · right
        simp only [List.mem_cons, List.not_mem_nil, or_false] at h2
        rcases h2 with rfl | rfl | rfl | rfl | rfl | rfl
        · exact ⟨l.uuid, by simp [listProperties]⟩
        · exact ⟨l.url, by simp [listProperties]⟩
        · exact ⟨l.title, by simp [listProperties]⟩
        · exact ⟨l.supportUrl, by simp [listProperties]⟩
        · exact ⟨l.componentId, by simp [listProperties]⟩
        · exact ⟨l.base64PublicKey, by simp [listProperties]⟩
      · left
        split at h2
        · cases List.mem_singleton.1 h2; rfl
        · cases h2

/-- **C77**: each group of `adBlockLists` has an object for each list, in the order of the tables. -/
theorem C77_groups :
    Pointwise (fun l o => Shows o l) defaultLists adBlockLists.default ∧ Pointwise (fun l o => Shows o l) regionLists adBlockLists.regions ∧
    Pointwise (fun l o => Shows o l) malwareLists adBlockLists.malware := by
  have key : ∀ ls : List FilterList, (∀ l ∈ ls, l ∈ allLists) → Pointwise (fun l o => Shows o l) ls (ls.map listObject) := by
    intro ls
    induction ls with
    | nil => exact fun _ => .nil
    | cons l ls ih => exact fun h => .cons (C77_objects (h l (by simp))) (ih fun x hx => h x (by simp [hx]))
  exact ⟨key _ fun l hl => by simp [allLists, hl], key _ fun l hl => by simp [allLists, hl], key _ fun l hl => by simp [allLists, hl]⟩

/-- the UUID of the object is this one exactly if that of the list is -/
theorem has_uuid {l : FilterList} (hl : l ∈ allLists) (uuid : Chars) :
    ((listObject l).get cs%"uuid" == some (.text uuid)) = (l.uuid == utf8 uuid) := by
  have e := jsFromString_field hl (b := l.uuid) (by simp)
  have : (listObject l).get cs%"uuid" = some (.text (jsFromString l.uuid)) := rfl
  rw [this, Bool.eq_iff_iff]
  simp only [beq_iff_eq, Option.some.injEq, JsField.text.injEq]
  constructor
  · intro h; rw [← h, e]
  · intro h; rw [h] at e; rw [h]; exact utf8_injective e

theorem find_objects {ls : List FilterList} (h : ∀ l ∈ ls, l ∈ allLists) (uuid : Chars) :
    (ls.map listObject).find? (fun o => o.get cs%"uuid" == some (.text uuid)) = (ls.find? fun l => l.uuid == utf8 uuid).map listObject := by
  induction ls with
  | nil => rfl
  | cons l ls ih =>
    rw [List.map_cons, List.find?_cons, List.find?_cons, has_uuid (h l (by simp)), ih fun x hx => h x (by simp [hx])]
    cases l.uuid == utf8 uuid <;> rfl

/-- finding an object is finding the list -/
theorem jsFindList_eq (uuid : Chars) : jsFindList adBlockLists uuid = (allLists.find? fun l => l.uuid == utf8 uuid).map listObject := by
  unfold jsFindList adBlockLists
  dsimp only
  rw [find_objects (fun l hl => by simp [allLists, hl]), find_objects (fun l hl => by simp [allLists, hl]),
    find_objects (fun l hl => by simp [allLists, hl])]
  unfold allLists
  rw [List.find?_append, List.find?_append]
  cases defaultLists.find? (fun l => l.uuid == utf8 uuid) with
  | some l => rfl
  | none =>
    cases regionLists.find? (fun l => l.uuid == utf8 uuid) with
    | some l => rfl
    | none => rfl

/-- **C77**: a string given as a UUID makes the client that its UTF-8 form makes (C68). -/
theorem C77_found (E : Env) (fetch : Bytes → Option Bytes) (keep : Bool) (uuid : Chars) :
    jsMakeClientFromListUUID E fetch keep uuid = makeClientFromListUUID E fetch keep (utf8 uuid) := by
  unfold jsMakeClientFromListUUID makeClientFromListUUID
  rw [jsFindList_eq, findList_eq]
  cases h : allLists.find? (fun l => l.uuid == utf8 uuid) with
  | none => rfl
  | some l =>
    have e := jsFromString_field (List.mem_of_find?_eq_some h) (b := l.url) (by simp)
    have : (listObject l).get cs%"listURL" = some (.text (jsFromString l.url)) := rfl
    dsimp only [Option.map_some]
    rw [this]
    dsimp only
    rw [e]

/-- **C77**: the UUID read from an object makes a client of the text at the address read from the same object. -/
theorem C77_own_list (E : Env) (fetch : Bytes → Option Bytes) (keep : Bool) {o : JsObject} (ho : o ∈ allObjects) :
    ∃ uuid url, o.get cs%"uuid" = some (.text uuid) ∧ o.get cs%"listURL" = some (.text url) ∧ jsFindList adBlockLists uuid = some o ∧
      jsMakeClientFromListUUID E fetch keep uuid =
        (fetch (utf8 url)).map fun body => (Client.fresh E).parse (listURLText none body) keep := by
  have hl : ∃ l ∈ allLists, listObject l = o := by
    simpa [allObjects, adBlockLists, allLists, or_and_right, exists_or, or_assoc] using ho
  obtain ⟨l, hl, rfl⟩ := hl
  have e1 := jsFromString_field hl (b := l.uuid) (by simp)
  have e2 := jsFromString_field hl (b := l.url) (by simp)
  refine ⟨_, _, rfl, rfl, ?_, ?_⟩
  · rw [jsFindList_eq, e1, ← findList_eq, find_uuid hl]
    rfl
  · rw [C77_found, e1, e2, C68_known E fetch keep hl]

/-- **C77**: no other string finds an object. -/
theorem C77_not_found {uuid : Chars} (h : ∀ o ∈ allObjects, o.get cs%"uuid" ≠ some (.text uuid)) :
    jsFindList adBlockLists uuid = none := by
  cases hf : jsFindList adBlockLists uuid with
  | none => rfl
  | some o =>
    exfalso
    rw [jsFindList_eq] at hf
    obtain ⟨l, hl, rfl⟩ := Option.map_eq_some_iff.1 hf
    have hm := List.mem_of_find?_eq_some hl
    refine h (listObject l) ?_ ?_
    · simp only [allLists, List.mem_append] at hm
      simp only [allObjects, adBlockLists, List.mem_append, List.mem_map]
      rcases hm with (hm | hm) | hm
      · exact .inl (.inl ⟨l, hm, rfl⟩)
      · exact .inl (.inr ⟨l, hm, rfl⟩)
      · exact .inr ⟨l, hm, rfl⟩
    · have := List.find?_some hl
      rw [← has_uuid hm uuid] at this
      exact beq_iff_eq.1 this

/-- **C77**: the default lists are these five; `check` loads the texts at their addresses. -/
theorem C77_default :
    adBlockLists.default.map (fun o => (o.get cs%"title", o.get cs%"listURL")) =
      defaultCatalogue.map (fun p => (some (.text p.1), some (.text p.2))) ∧
    jsDefaultAddresses = defaultCatalogue.map (fun p => some (.text p.2)) := by decide +kernel

theorem objects_languages : (adBlockLists.regions.all fun o =>
    match o.get cs%"langs" with
    | some (.texts ls) => ls.all fun lang => (regionalLanguages.map (·.1)).contains lang
    | _ => true) = true := by decide +kernel

theorem known_languages : ∀ lang ∈ regionalLanguages.map (·.1),
    (adBlockLists.regions.filter (forLanguage lang)).map (fun o => o.get cs%"title") = (titlesFor lang).map fun t => some (.text t) := by
  decide +kernel

/-- **C77**: the lists of the regions with a language among their `langs` are those of the table of languages, and there
are none for any other string. -/
theorem C77_languages (lang : Chars) :
    (adBlockLists.regions.filter (forLanguage lang)).map (fun o => o.get cs%"title") = (titlesFor lang).map fun t => some (.text t) := by
  by_cases h : lang ∈ regionalLanguages.map (·.1)
  · exact known_languages lang h
  · have h1 : adBlockLists.regions.filter (forLanguage lang) = [] := by
      refine List.filter_eq_nil_iff.2 fun o ho hf => h ?_
      have := List.all_eq_true.1 objects_languages o ho
      unfold forLanguage at hf
      split at hf
      · rename_i ls e
        rw [e] at this
        simpa using List.all_eq_true.1 this lang (by simpa using hf)
      · cases hf
    have h2 : regionalLanguages.find? (fun p => p.1 == lang) = none := by
      refine List.find?_eq_none.2 fun p hp e => h ?_
      exact List.mem_map.2 ⟨p, hp, beq_iff_eq.1 e⟩
    unfold titlesFor
    rw [h1, h2]
    rfl

/-- **C77**: lists that are for everyone have no languages. -/
theorem C77_for_everyone : ∀ o ∈ adBlockLists.default ++ adBlockLists.malware, o.get cs%"langs" = none := by decide +kernel

/-- a title that is not in ASCII, as JavaScript reads it, and a list in no language -/
example : (adBlockLists.regions[2]?).bind (fun o => o.get cs%"title") = some (.text cs%"CHN: EasyList China (中文)") ∧
    (adBlockLists.regions[2]?).bind (fun o => o.get cs%"langs") = some (.texts [cs%"zh"]) ∧
    (adBlockLists.regions[3]?).bind (fun o => o.get cs%"langs") = none := by decide +kernel

/-- a UUID that is known, and one that is not -/
example : (jsFindList adBlockLists cs%"9FCEECEC-52B4-4487-8E57-8781E82C91D0").isSome = true ∧
    jsFindList adBlockLists cs%"9fceecec-52b4-4487-8e57-8781e82c91d0" = none := by decide +kernel

end AdBlock
