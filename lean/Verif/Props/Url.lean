import Verif.Lemmas.Protocol
import Verif.Model.Client
/-!
Properties of URL handling: protocols (C02, C03), separators (C04), hosts (C05),
first and third party (C06, C07).
-/
namespace AdBlock
open Spec

/-- **C02**: the protocol check accepts exactly the web URLs longer than 5 characters. -/
theorem C02_blockable_protocols (url : Bytes) :
    (isBlockableProtocol (cstr url) url.length = .ok true ↔ WebUrl url ∧ 5 < url.length) ∧
    (isBlockableProtocol (cstr url) url.length = .ok false ↔ ¬ (WebUrl url ∧ 5 < url.length)) := by
  obtain ⟨b, h1, h2⟩ := isBlockableProtocol_cstr url
  rw [h1, ← h2]
  cases b <;> simp

example : WebUrl bs%"blob:HTTPS://a.com/x" ∧ 5 < (bs%"blob:HTTPS://a.com/x").length :=
  ⟨⟨bs%"blob:", bs%"HTTPS", bs%"a.com/x", by decide, by decide, by decide⟩, by decide⟩
example : isBlockableProtocol (cstr bs%"data:image/png") 14 = .ok false := by decide
example : isBlockableProtocol (cstr bs%"wss://x") 7 = .ok true := by decide

/-- The length restriction only concerns `ws://`: every longer web URL passes. -/
theorem C02_length_only_excludes_ws (url : Bytes) (hw : WebUrl url) (h : ¬ 5 < url.length) :
    url.map lower = bs%"ws://" := by
  obtain ⟨blob, sch, rest, rfl, hb, hs⟩ := hw
  simp only [List.length_append, List.length_cons, List.length_nil] at h
  have hs' : sch.length = (sch.map lower).length := by simp
  simp only [List.mem_cons, List.not_mem_nil, or_false] at hs
  have hrest : ∀ r : Bytes, r.length = 0 → r = [] := fun r hr => List.length_eq_zero_iff.1 hr
  rcases hb with rfl | hb
  · rcases hs with hs | hs | hs | hs
    · rw [hs] at hs'; simp at hs' h; omega
    · rw [hs] at hs'; simp at hs' h; omega
    · rw [hs] at hs'; simp at hs' h
      have : rest = [] := hrest _ (by omega)
      simp [this, hs, List.map_append]; decide
    · rw [hs] at hs'; simp at hs' h; omega
  · have hb' : blob.length = (blob.map lower).length := by simp
    rw [hb] at hb'; simp at hb'; omega

/-- **C03**: the protocol check reads only bytes of the URL and its terminating NUL.  (In
`cstr url` the allocation ends with the NUL; a read past it would be `ub oobRead`.)  This
holds even if the length passed along is wrong. -/
theorem C03_protocol_check_in_bounds (url : Bytes) (n : Nat) :
    ∃ b, isBlockableProtocol (cstr url) n = .ok b := by
  rw [← Res.isOk_iff]
  have hb : (protoBlob (cstr url) 0 n).isOk = true :=
    word_isOk (w := bs%"blob:") (by decide) url (0 + 5 ≥ n) (fun p => protoPostBlob p (0 + 5) n)
      (fun s' => protoPostBlob_isOk s' _ _)
  have hr : ∃ c, rd (cstr url) 0 = .ok c := by
    cases url <;> exact ⟨_, rfl⟩
  obtain ⟨c, hc⟩ := hr
  unfold isBlockableProtocol
  simp only [hc, Res.bind_ok]
  split
  · rfl
  · split
    · exact hb
    · exact protoPostBlob_isOk _ _ _

/-- the model does distinguish out-of-bounds reads -/
example : isBlockableProtocol bs%"http:" 6 = .ub .oobRead := by decide
example : isBlockableProtocol (cstr bs%"http:/") 6 = .ok false := by decide

/-- **C04**: the separator characters are exactly `$ / : = ? ^`. -/
theorem C04_separators (c : Byte) :
    isSeparatorChar c = true ↔
      c = ch%'$' ∨ c = ch%'/' ∨ c = ch%':' ∨ c = ch%'=' ∨ c = ch%'?' ∨ c = ch%'^' := by
  rw [isSeparatorChar_iff]
  simp [IsSep, separators]

example : isSeparatorChar ch%'/' = true ∧ isSeparatorChar ch%';' = false := by decide

/-- **C05**: the host of a URL `scheme : slashes host rest`. -/
theorem C05_host_of_url (scheme slashes host rest : Bytes)
    (hscheme : ch%':' ∉ scheme) (hslashes : ∀ c ∈ slashes, c = ch%'/')
    (hne : host ≠ []) (hhost : ∀ c ∈ host, ¬ IsSep c)
    (hrest : rest = [] ∨ ∃ c r, rest = c :: r ∧ IsSep c) :
    getUrlHost (scheme ++ [ch%':'] ++ slashes ++ host ++ rest) = host := by
  have := getUrlHost_spec hscheme hslashes ?_ hne hhost hrest
  · simpa using this
  intro h hh e
  have : h ∈ host := by cases host <;> simp_all
  exact hhost h this (by rw [e]; decide)

example : getUrlHost bs%"https://www.brave.com:8080/x?y" = bs%"www.brave.com" := by decide
example : (∀ c ∈ bs%"www.brave.com", ¬ IsSep c) ∧ ch%':' ∉ bs%"https" := by decide

/-- The host never contains a separator, whatever the URL. -/
theorem C05_host_has_no_separator (url : Bytes) : ∀ c ∈ getUrlHost url, ¬ IsSep c :=
  not_sep_of_mem_take _

/-- **C06**: `isThirdPartyHost base test` is false exactly when `test` is `base` or a
subdomain of it. -/
theorem C06_same_site (base test : Bytes) :
    isThirdPartyHost base test = false ↔
      test = base ∨ ∃ sub, test = sub ++ ch%'.' :: base :=
  isThirdPartyHost_eq_false_iff base test

example : isThirdPartyHost bs%"brave.com" bs%"ads.brave.com" = false := by decide
example : isThirdPartyHost bs%"brave.com" bs%"notbrave.com" = true := by decide

/-- **C07**: classification of a request whose party was not given by the caller. -/
theorem C07_party_classification (url : Bytes) (ctx : Mask) (dom : Bytes)
    (h : ctx &&& (FOThirdParty ||| FONotThirdParty) = 0) :
    (SameSite dom (getUrlHost url) →
      resolveContext url ctx (some dom) = ctx ||| FONotThirdParty) ∧
    (¬ SameSite dom (getUrlHost url) →
      resolveContext url ctx (some dom) = ctx ||| FOThirdParty) := by
  have h' : has ctx (FOThirdParty ||| FONotThirdParty) = false := by simp [has, h]
  rw [← isThirdPartyHost_eq_false_iff]
  constructor
  · intro hs; simp [resolveContext, h', hs]
  · intro hs
    have : isThirdPartyHost dom (getUrlHost url) = true := by simpa using hs
    simp [resolveContext, h', this]

/-- **C07**: what the caller says about the party is kept as it is, and so is a context
without a domain. -/
theorem C07_explicit_party_kept (url : Bytes) (ctx : Mask) (dom : Option Bytes)
    (h : ctx &&& (FOThirdParty ||| FONotThirdParty) ≠ 0 ∨ dom = none) :
    resolveContext url ctx dom = ctx := by
  cases dom with
  | none => rfl
  | some d =>
    have h' : has ctx (FOThirdParty ||| FONotThirdParty) = true := by
      rcases h with h | h
      · simpa [has] using h
      · simp at h
    simp [resolveContext, h']

/-- **C07**: exactly one of the two party bits is set afterwards, and no other bit changes. -/
theorem C07_other_bits_kept (url : Bytes) (ctx : Mask) (dom : Option Bytes) :
    resolveContext url ctx dom &&& ~~~(FOThirdParty ||| FONotThirdParty) =
      ctx &&& ~~~(FOThirdParty ||| FONotThirdParty) := by
  have key : ∀ m : Mask, m &&& ~~~(FOThirdParty ||| FONotThirdParty) = 0#32 →
      (ctx ||| m) &&& ~~~(FOThirdParty ||| FONotThirdParty) =
        ctx &&& ~~~(FOThirdParty ||| FONotThirdParty) := by
    intro m hm
    rw [BitVec.and_comm, BitVec.and_or_distrib_left, BitVec.and_comm (y := m), hm,
      BitVec.or_zero, BitVec.and_comm]
  unfold resolveContext
  split
  · rfl
  · split
    · rfl
    · split
      · exact key _ (by decide)
      · exact key _ (by decide)

example : resolveContext bs%"http://ads.brave.com/x" FOImage (some bs%"brave.com")
    = FOImage ||| FONotThirdParty := by decide
example : resolveContext bs%"http://notbrave.com/x" FOImage (some bs%"brave.com")
    = FOImage ||| FOThirdParty := by decide

end AdBlock
