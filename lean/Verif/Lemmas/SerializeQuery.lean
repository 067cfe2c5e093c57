import Verif.SpecReload
import Verif.Lemmas.SerializeClient
import Verif.Lemmas.Outcome
/-
Clients with the same rules answer queries alike.
-/
namespace AdBlock
open Spec

/-! ### bytes behind the terminator do not matter -/

theorem rd_append_lt {p : Ptr} {i : Nat} (h : i < p.length) (q : Ptr) : rd (p ++ q) i = rd p i := by
  rw [rd_append_left h, rd_of_lt h]

theorem getNextPos_append {sep : Byte} {p : Ptr} {n : Nat} (h : n ≤ p.length) (q : Ptr) :
    getNextPos sep (p ++ q) n = getNextPos sep p n := by
  induction p generalizing n with
  | nil => have : n = 0 := by simpa using h
           subst this; simp [getNextPos]
  | cons c p ih =>
    cases n with
    | zero => rfl
    | succ n =>
      simp only [getNextPos, List.cons_append]
      rw [ih (by simpa using h)]

theorem wildLoop_append {bloom : Option (Bytes → Bool)} {input : Ptr} {n : Nat} (q : Ptr) :
    ∀ (fuel : Nat) (d : Ptr) (rem pl idx : Nat), pl ≤ rem → rem < d.length →
      wildLoop bloom input n fuel (d ++ q) rem pl idx = wildLoop bloom input n fuel d rem pl idx := by
  intro fuel
  induction fuel with
  | zero => intro d rem pl idx _ _; rfl
  | succ fuel ih =>
    intro d rem pl idx h1 h2
    have htake : (d ++ q).take pl = d.take pl := List.take_append_of_le_length (by omega)
    have hen : wildEnter (d ++ q) pl = wildEnter d pl := by
      unfold wildEnter
      rw [rd_append_lt (by omega)]
    rw [wildLoop_succ, wildLoop_succ, hen, htake]
    congr 1
    funext en
    split
    · rfl
    split
    · rfl
    congr 1
    funext o
    cases o with
    | none => rfl
    | some k =>
      simp only
      split
      · rfl
      rename_i hr
      have hlt : pl + 1 ≤ d.length := by omega
      have hdrop : (d ++ q).drop (pl + 1) = d.drop (pl + 1) ++ q := List.drop_append_of_le_length hlt
      rw [rd_append_lt (by omega), hdrop, getNextPos_append (by rw [List.length_drop]; omega)]
      congr 1
      funext e
      split
      · rfl
      cases hnp : getNextPos ch%'*' (d.drop (pl + 1)) (rem - (pl + 1)) with
      | ub u => rfl
      | ok np =>
        simp only [Res.bind_ok]
        congr 1
        funext c
        split
        · rfl
        exact ih _ _ _ _ (getNextPos_le hnp) (by rw [List.length_drop]; omega)

theorem matchesPattern_append {f : Filter} {pat : Bytes} (h0 : 0 ∉ pat) {url : Bytes} (hu : 0 ∉ url)
    {bloom : Option (Bytes → Bool)} (q : Ptr) :
    f.matchesPattern (pat ++ 0 :: q) pat.length url bloom = f.matchesPattern (pat ++ [0]) pat.length url bloom := by
  unfold Filter.matchesPattern
  split
  · rfl
  split
  · rw [cstr, strcmpEq_cstr h0 hu, strcmpEq_cstr h0 hu]
  split
  · split
    · rfl
    · rename_i hl
      have e : (cstr url).drop (url.length - pat.length) = url.drop (url.length - pat.length) ++ 0 :: [] := by
        rw [cstr, List.drop_append_of_le_length (by omega)]
      have hd : 0 ∉ url.drop (url.length - pat.length) := fun h => hu (List.mem_of_mem_drop h)
      rw [e, strcmpEq_cstr hd h0, strcmpEq_cstr hd h0]
  split
  · rw [cstr, strncmpPtrEq_cstr h0 hu, strncmpPtrEq_cstr h0 hu]
  split
  · rfl
  unfold wildMatch
  rw [show pat ++ 0 :: q = (pat ++ [0]) ++ q by simp, getNextPos_append (by simp)]
  cases hk : getNextPos ch%'*' (pat ++ [0]) pat.length with
  | ub u => rfl
  | ok k =>
    simp only [Res.bind_ok]
    rw [wildLoop_append q _ _ _ _ _ (getNextPos_le hk) (by simp)]

theorem text_len {f : Filter} {pat d : Bytes} (h : HasText f pat) (hd : f.data = some d) :
    f.len d = .ok pat.length := by
  obtain ⟨h0, ⟨r, hr⟩, hl⟩ := h
  rw [hd] at hr
  cases hr
  unfold Filter.len
  rcases hl with hl | hl
  · rw [hl]; exact strlen_cstr h0 r
  · rw [hl]

/-- everything but the text -/
theorem same_pattern {f g : Filter} (h : SameOptions f g) (d : Ptr) (n : Nat) (url : Bytes)
    (bloom : Option (Bytes → Bool)) : g.matchesPattern d n url bloom = f.matchesPattern d n url bloom := by
  have ha : g.hostAnchorOk url bloom = f.hostAnchorOk url bloom := by
    unfold Filter.hostAnchorOk; rw [h.host]
  unfold Filter.matchesPattern
  rw [h.kind, ha]

theorem same_options {f g : Filter} (h : SameOptions f g) (ctx : Mask) (dom : Option Bytes) :
    g.matchesOptions ctx dom = f.matchesOptions ctx dom :=
  matchesOptions_congr (f := g) (g := f) h.options h.antiOptions h.domainList ctx dom

/-- rules of the arrays which are the same match the same requests -/
theorem same_rule_matches {f g : Filter} (h : SameRule f g) (hf : f.data = none ∨ ∃ pat, HasText f pat) {url : Bytes}
    (hu : 0 ∉ url) (ctx : Mask) (dom : Option Bytes) (bloom : Option (Bytes → Bool)) :
    g.matches url ctx dom bloom = f.matches url ctx dom bloom := by
  rw [matches_eq, matches_eq, same_options h.toSameOptions]
  split
  · rfl
  rcases hf with hn | ⟨pat, hp⟩
  · rw [hn, h.noText hn]
  · have hg := h.text pat hp
    obtain ⟨h0, ⟨r, hr⟩, _⟩ := id hp
    obtain ⟨_, ⟨r', hr'⟩, _⟩ := id hg
    rw [hr, hr']
    simp only
    rw [text_len hp hr, text_len hg hr', Res.bind_ok, Res.bind_ok, same_pattern h.toSameOptions,
      matchesPattern_append h0 hu r, matchesPattern_append h0 hu r']

/-- an entry of a hash set which consists of its text matches no more than one with bytes behind it -/
theorem same_entry_matches {f g : Filter} (h : SameEntry f g) {pat : Bytes} (h0 : 0 ∉ pat) (hd : f.data = some pat)
    (hl : f.dataLen = some pat.length) {url : Bytes} {ctx : Mask} {dom : Option Bytes} {bloom : Option (Bytes → Bool)}
    {b : Bool} (hm : f.matches url ctx dom bloom = .ok b) : g.matches url ctx dom bloom = .ok b := by
  obtain ⟨_, ⟨r, hr⟩, hgl⟩ := h.text pat ⟨h0, ⟨[], by simpa using hd⟩, hl⟩
  rw [matches_eq] at hm ⊢
  rw [same_options h.toSameOptions]
  split
  · rename_i ho; rw [if_pos ho] at hm; exact hm
  rename_i ho; rw [if_neg ho] at hm
  rw [hd] at hm
  rw [hr]
  simp only [Filter.len, hl, hgl, Res.bind_ok] at hm ⊢
  rw [same_pattern h.toSameOptions]
  exact matchesPattern_mono (Nat.le_refl _) hm r

/-! ### the phases of a query -/

theorem tagOk_same {f g : Filter} (h : SameOptions f g) (tags : List Bytes) : tagOk tags g = tagOk tags f := by
  unfold tagOk; rw [h.tag]

theorem hasMatching_same {R : Filter → Filter → Prop} {m : Filter → Res Bool} {tags tags' : List Bytes}
    (ht : ∀ f, tagOk tags' f = tagOk tags f) {l l' : List Filter} (h : Pointwise R l l') (ho : ∀ f g, R f g → SameOptions f g)
    (hm : ∀ f ∈ l, ∀ g, R f g → ∀ b, m f = .ok b → m g = .ok b) {r : Option Filter}
    (hr : hasMatchingFilters tags m l = .ok r) :
    ∃ r', hasMatchingFilters tags' m l' = .ok r' ∧ SamePointer R r r' := by
  induction h with
  | nil => cases hr; exact ⟨none, rfl, .null⟩
  | @cons f g l l' hfg _ ih =>
    simp only [hasMatchingFilters] at hr ⊢
    obtain ⟨b, hb, hr⟩ := Res.bind_eq_ok.1 hr
    rw [hm f (by simp) g hfg b hb, Res.bind_ok, ht, tagOk_same (ho f g hfg)]
    split
    · rename_i hc; rw [if_pos hc] at hr; cases hr; exact ⟨_, rfl, .some hfg⟩
    · rename_i hc; rw [if_neg hc] at hr
      exact ih (fun f hf => hm f (List.mem_cons_of_mem _ hf)) hr

theorem find?_same {A B : Type} {R : A → B → Prop} {l : List A} {l' : List B} (h : Pointwise R l l') {p : A → Bool}
    {p' : B → Bool} (hp : ∀ a b, R a b → p' b = p a) : SamePointer R (l.find? p) (l'.find? p') := by
  induction h with
  | nil => exact .null
  | @cons a b l l' hab _ ih =>
    rw [List.find?_cons, List.find?_cons, hp a b hab]
    cases p a with
    | true => exact .some hab
    | false => exact ih

theorem find_same {A B : Type} {R : A → B → Prop} {s : HSet A} {t : HSet B} (h : SameSet R s t) (hc : 0 < s.count)
    (k : Nat) {p : A → Bool} {p' : B → Bool} (hp : ∀ a b, R a b → p' b = p a) :
    SamePointer R (s.find k p) (t.find k p') := by
  unfold HSet.find
  rw [h.count]
  exact find?_same (h.bucket _ (Nat.mod_lt _ hc)) hp

theorem noFp_same {E : Env} {s t : Option (HSet Bytes)} (h : SamePointer (SameSet Eq) s t)
    (hc : ∀ x, s = some x → 0 < x.count) (dom : Option Bytes) :
    isNoFingerprintDomainHashSetMiss E t dom = isNoFingerprintDomainHashSetMiss E s dom := by
  have key : ∀ {s t : HSet Bytes}, SameSet Eq s t → 0 < s.count → ∀ k p, (t.find k p).isNone = (s.find k p).isNone := by
    intro s t h hc k p
    have := find_same h hc k (p := p) (p' := p) (fun a b e => by rw [e])
    revert this
    generalize s.find k p = x
    generalize t.find k p = y
    intro hxy
    cases hxy <;> rfl
  cases h with
  | null => rfl
  | @some a b h =>
    unfold isNoFingerprintDomainHashSetMiss
    cases dom with
    | none => exact key h (hc a rfl) _ _
    | some d => simp only [key h (hc a rfl)]

/-- the entries of a hash set consist of their text -/
def BareSet (s : HSet Filter) : Prop :=
  0 < s.count ∧ ∀ i, i < s.count → ∀ f ∈ s.bucket i, ∃ pat, 0 ∉ pat ∧ f.data = some pat ∧ f.dataLen = some pat.length

theorem find_mem {T : Type} {s : HSet T} {k : Nat} {p : T → Bool} {f : T} (h : s.find k p = some f) :
    f ∈ s.bucket (k % s.count) := by
  unfold HSet.find at h
  exact List.mem_of_find?_eq_some h

theorem hostSetLookup_same {E : Env} {tags tags' : List Bytes} (htag : ∀ f, tagOk tags' f = tagOk tags f) {s t : HSet Filter} (h : SameSet SameEntry s t)
    (hs : BareSet s) {url : Bytes} {ctx : Mask} {dom : Option Bytes} {bloom : Option (Bytes → Bool)} {ds : List Bytes}
    {r : Option Filter} (hr : hostSetLookup E tags (fun f => f.matches url ctx dom bloom) s ds = .ok r) :
    ∃ r', hostSetLookup E tags' (fun f => f.matches url ctx dom bloom) t ds = .ok r' ∧
      SamePointer (fun f g => SameEntry f g ∧ ∃ pat, HasBareText f pat) r r' := by
  induction ds with
  | nil => cases hr; exact ⟨none, rfl, .null⟩
  | cons d ds ih =>
    simp only [hostSetLookup] at hr ⊢
    have hf := find_same h hs.1 (E.hash d) (p := fun f => f.host.getD [] == d) (p' := fun f => f.host.getD [] == d)
      (fun a b hab => by rw [hab.host])
    cases hx : s.find (E.hash d) (fun f => f.host.getD [] == d) with
    | none =>
      rw [hx] at hf hr
      cases hy : t.find (E.hash d) (fun f => f.host.getD [] == d) with
      | some g => rw [hy] at hf; cases hf
      | none => exact ih hr
    | some f =>
      rw [hx] at hf hr
      cases hy : t.find (E.hash d) (fun f => f.host.getD [] == d) with
      | none => rw [hy] at hf; cases hf
      | some g =>
        rw [hy] at hf
        simp only at hr ⊢
        cases hf with
        | some hfg =>
          obtain ⟨b, hb, hr⟩ := Res.bind_eq_ok.1 hr
          obtain ⟨pat, h0, hd, hl⟩ := hs.2 _ (Nat.mod_lt _ hs.1) f (find_mem hx)
          rw [same_entry_matches hfg h0 hd hl hb, Res.bind_ok, htag, tagOk_same hfg.toSameOptions]
          split
          · rename_i hc; rw [if_pos hc] at hr; cases hr; exact ⟨_, rfl, .some ⟨hfg, pat, h0, ⟨[], by simpa using hd⟩, hl⟩⟩
          · rename_i hc; rw [if_neg hc] at hr; exact ih hr

theorem SamePointer.isNone {A B : Type} {R : A → B → Prop} {a : Option A} {b : Option B} (h : SamePointer R a b) :
    b.isNone = a.isNone := by cases h <;> rfl

theorem SamePointer.mono {A B : Type} {R S : A → B → Prop} {a : Option A} {b : Option B} (h : SamePointer R a b)
    (hi : ∀ a b, R a b → S a b) : SamePointer S a b := by
  cases h with
  | null => exact .null
  | some h => exact .some (hi _ _ h)

theorem hostMiss_same {E : Env} {tags tags' : List Bytes} (htag : ∀ f, tagOk tags' f = tagOk tags f) {s t : Option (HSet Filter)}
    (h : SamePointer (SameSet SameEntry) s t) (hs : ∀ x, s = some x → BareSet x) {url host : Bytes} {ctx : Mask}
    {dom : Option Bytes} {bloom : Option (Bytes → Bool)} {r : SetRes}
    (hr : isHostAnchoredHashSetMiss E tags (fun f => f.matches url ctx dom bloom) s host = .ok r) :
    ∃ r', isHostAnchoredHashSetMiss E tags' (fun f => f.matches url ctx dom bloom) t host = .ok r' ∧
      r'.miss = r.miss ∧ SamePointer (fun f g => SameEntry f g ∧ ∃ pat, HasBareText f pat) r.found r'.found := by
  cases h with
  | null => cases hr; exact ⟨_, rfl, rfl, .null⟩
  | @some a b h =>
    unfold isHostAnchoredHashSetMiss at hr ⊢
    simp only at hr ⊢
    obtain ⟨x, hx, hr⟩ := Res.bind_eq_ok.1 hr
    cases hr
    obtain ⟨y, hy, hxy⟩ := hostSetLookup_same htag h (hs a rfl) hx
    rw [hy, Res.bind_ok]
    exact ⟨_, rfl, SamePointer.isNone hxy, hxy⟩

/-- keep a result, or look further -/
def orTry (a : Option Filter) (X : Res (Option Filter)) : Res (Option Filter) :=
  match a with
  | some f => .ok (some f)
  | none => X

theorem orTry_same {R : Filter → Filter → Prop} {a a' r : Option Filter} {X Y : Res (Option Filter)}
    (ha : SamePointer R a a') (hX : ∀ {r}, X = .ok r → ∃ r', Y = .ok r' ∧ SamePointer R r r')
    (hr : orTry a X = .ok r) : ∃ r', orTry a' Y = .ok r' ∧ SamePointer R r r' := by
  cases ha with
  | some h => cases hr; exact ⟨_, rfl, .some h⟩
  | null => exact hX hr

theorem find_orTry {E : Env} (c : Client E) (url : Bytes) (co : Mask) (dom : Option Bytes) :
    c.findMatchingFilters url co dom =
    firstInLists c.tags (Client.callMatchNoBloom url (resolveContext url co dom) dom)
      [c.lists .noFp, c.lists .noFpDomain, c.lists .noFpAntiDomain, c.lists .filters] >>= fun r1 =>
    orTry r1 (SetRes.found <$> isHostAnchoredHashSetMiss E c.tags
      (Client.callMatchNoBloom url (resolveContext url co dom) dom) c.hostSet (getUrlHost url)) >>= fun mf =>
    match mf with
    | none => .ok ⟨false, none, none⟩
    | some f =>
      firstInLists c.tags (Client.callMatchNoBloom url (resolveContext url co dom) dom)
        [c.lists .noFpException, c.lists .noFpDomainException, c.lists .noFpAntiDomainException] >>= fun e1 =>
      orTry e1 (SetRes.found <$> isHostAnchoredHashSetMiss E c.tags
        (Client.callMatchNoBloom url (resolveContext url co dom) dom) c.hostExceptionSet (getUrlHost url)) >>= fun e2 =>
      orTry e2 (hasMatchingFilters c.tags (Client.callMatchNoBloom url (resolveContext url co dom) dom)
        (c.lists .exception)) >>= fun e3 =>
      .ok ⟨e3.isNone, some f, e3⟩ := find_eq url co dom

/-- What the comparison of the answers of two clients needs to know about the first one. -/
structure Comparable {E : Env} (c : Client E) : Prop where
  rules : ∀ id, ∀ f ∈ c.lists id, f.data = none ∨ ∃ pat, HasText f pat
  hostSet : ∀ s, c.hostSet = some s → BareSet s
  hostExceptionSet : ∀ s, c.hostExceptionSet = some s → BareSet s
  domSets : ∀ d s, c.domSets d = some s → 0 < s.count

theorem SameRule.refl (f : Filter) : SameRule f f := ⟨⟨rfl, rfl, rfl, rfl, rfl, rfl⟩, id, fun _ h => h⟩

theorem SameEntry.refl (f : Filter) : SameEntry f f := ⟨⟨rfl, rfl, rfl, rfl, rfl, rfl⟩, fun _ h => h⟩

/-- a client that has read what another one has written -/
theorem same_network {E : Env} {ic ih : Bool} {c d : Client E} (h : SameClient ic ih c d) : SameNetwork c d where
  lists id hid := by
    have := h.lists id
    rw [← storedList_kept] at this
    cases id <;> first | exact this | exact absurd rfl hid.1 | exact absurd rfl hid.2
  pageRules id := by
    refine ⟨_, ?_, h.lists id⟩
    unfold kept
    split
    · exact List.nil_suffix
    · exact List.suffix_refl _
  numHostAnchoredFilters := h.numHostAnchoredFilters
  numHostAnchoredExceptionFilters := h.numHostAnchoredExceptionFilters
  bloom := h.bloom
  exceptionBloom := h.exceptionBloom
  hostSet := h.hostSet
  hostExceptionSet := h.hostExceptionSet
  domSets := h.domSets

section
variable {E : Env} {c d : Client E} (hc : Comparable c) (h : SameNetwork c d) (ht : ∀ f, tagOk d.tags f = tagOk c.tags f)
  {url : Bytes} (hu : 0 ∉ url)
include hc h ht hu

theorem list_same {ctx : Mask} {dom : Option Bytes} {bloom : Option (Bytes → Bool)} (id : ListId)
    (hid : id ≠ .cosmetic ∧ id ≠ .html) {r : Option Filter}
    (hr : hasMatchingFilters c.tags (fun f => f.matches url ctx dom bloom) (c.lists id) = .ok r) :
    ∃ r', hasMatchingFilters d.tags (fun f => f.matches url ctx dom bloom) (d.lists id) = .ok r' ∧
      SamePointer SameRule r r' := by
  exact hasMatching_same ht (h.lists id hid) (fun f g h => h.toSameOptions)
    (fun f hf g hfg b hb => by rw [same_rule_matches hfg (hc.rules id f hf) hu]; exact hb) hr

theorem noFpPhase_same {domSet antiSet : DomId} {dl al l : ListId} {ctx : Mask} {dom : Option Bytes}
    (h1 : dl ≠ .cosmetic ∧ dl ≠ .html) (h2 : al ≠ .cosmetic ∧ al ≠ .html) (h3 : l ≠ .cosmetic ∧ l ≠ .html)
    {r : Option Filter} (hr : c.noFpPhase domSet antiSet dl al l url ctx dom = .ok r) :
    ∃ r', d.noFpPhase domSet antiSet dl al l url ctx dom = .ok r' ∧ SamePointer SameRule r r' := by
  rw [noFpPhase_eq] at hr ⊢
  unfold Client.callMatch at hr ⊢
  simp only [noFp_same (E := E) (h.domSets domSet) (fun x hx => hc.domSets _ x hx) dom,
    noFp_same (E := E) (h.domSets antiSet) (fun x hx => hc.domSets _ x hx) dom] at hr ⊢
  obtain ⟨r1, hr1, hr⟩ := Res.bind_eq_ok.1 hr
  obtain ⟨r2, hr2, hr⟩ := Res.bind_eq_ok.1 hr
  have k1 : ∃ r1', (if !isNoFingerprintDomainHashSetMiss E (c.domSets domSet) dom then
      hasMatchingFilters d.tags (fun f => f.matches url ctx dom (some (E.pair.mem (inputBloom E url)))) (d.lists dl)
      else Res.ok none) = .ok r1' ∧ SamePointer SameRule r1 r1' := by
    split
    · rename_i hx; rw [if_pos hx] at hr1; exact list_same hc h ht hu dl h1 hr1
    · rename_i hx; rw [if_neg hx] at hr1; cases hr1; exact ⟨_, rfl, .null⟩
  obtain ⟨r1', e1, s1⟩ := k1
  rw [e1, Res.bind_ok, SamePointer.isNone s1]
  have k2 : ∃ r2', (if r1.isNone && isNoFingerprintDomainHashSetMiss E (c.domSets antiSet) dom then
      hasMatchingFilters d.tags (fun f => f.matches url ctx dom (some (E.pair.mem (inputBloom E url)))) (d.lists al)
      else Res.ok r1') = .ok r2' ∧ SamePointer SameRule r2 r2' := by
    split
    · rename_i hx; rw [if_pos hx] at hr2; exact list_same hc h ht hu al h2 hr2
    · rename_i hx; rw [if_neg hx] at hr2; cases hr2; exact ⟨_, rfl, s1⟩
  obtain ⟨r2', e2, s2⟩ := k2
  rw [e2, Res.bind_ok, SamePointer.isNone s2]
  split
  · rename_i hx; rw [if_pos hx] at hr; exact list_same hc h ht hu l h3 hr
  · rename_i hx; rw [if_neg hx] at hr; cases hr; exact ⟨_, rfl, s2⟩

/-- corresponding results of the first half of a query -/
inductive SameBlock {E : Env} : BlockRes E → BlockRes E → Prop
  | done {o o' : Outcome E} : o'.block = o.block → SamePointer SameReport o.filter o'.filter →
      SamePointer SameReport o.exception o'.exception → SameBlock (.done o) (.done o')
  | hit {f f'} : SamePointer SameReport f f' → SameBlock (.hit f) (.hit f')

omit hc h ht hu in
theorem report_rule {a b : Option Filter} (h : SamePointer SameRule a b) : SamePointer SameReport a b :=
  SamePointer.mono h fun _ _ => .inl

omit hc h ht hu in
theorem report_entry {a b : Option Filter} (h : SamePointer (fun f g => SameEntry f g ∧ ∃ pat, HasBareText f pat) a b) : SamePointer SameReport a b :=
  SamePointer.mono h fun _ _ => .inr

theorem blockPhase_same (hb : d.badFps = none) {ctx : Mask} {dom : Option Bytes} {r : BlockRes E}
    (hr : c.blockPhase url ctx dom = .ok r) : ∃ r', d.blockPhase url ctx dom = .ok r' ∧ SameBlock r r' := by
  unfold Client.blockPhase at hr ⊢
  obtain ⟨n, hn, hr⟩ := Res.bind_eq_ok.1 hr
  obtain ⟨n', hn', sn⟩ := noFpPhase_same hc h ht hu ⟨by simp, by simp⟩ ⟨by simp, by simp⟩ ⟨by simp, by simp⟩ hn
  rw [hn', Res.bind_ok]
  cases sn with
  | @some f g hfg => cases hr; exact ⟨_, rfl, .hit (.some (.inl hfg))⟩
  | null =>
    simp only at hr ⊢
    obtain ⟨x, hx, hr⟩ := Res.bind_eq_ok.1 hr
    unfold Client.callMatchNoBloom at hx ⊢
    obtain ⟨y, hy, hm, hf⟩ := hostMiss_same ht h.hostSet hc.hostSet hx
    rw [hy, Res.bind_ok, h.bloom, hm]
    split
    · rename_i hq; rw [if_pos hq] at hr; cases hr
      exact ⟨_, rfl, .done rfl (report_entry hf) .null⟩
    rename_i hq; rw [if_neg hq] at hr
    split
    · rename_i hq2; rw [if_pos hq2] at hr; cases hr
      exact ⟨_, rfl, .hit (report_entry hf)⟩
    rename_i hq2; rw [if_neg hq2] at hr
    unfold Client.callMatch at hr ⊢
    obtain ⟨z, hz, hr⟩ := Res.bind_eq_ok.1 hr
    obtain ⟨z', hz', sz⟩ := list_same hc h ht hu .filters ⟨by simp, by simp⟩ hz
    rw [hz', Res.bind_ok]
    cases sz with
    | @some f g hfg => cases hr; exact ⟨_, rfl, .hit (.some (.inl hfg))⟩
    | null =>
      simp only [hb] at hr ⊢
      cases hcb : c.badFps with
      | none => rw [hcb] at hr; cases hr; exact ⟨_, rfl, .done rfl .null .null⟩
      | some bf =>
        rw [hcb] at hr
        obtain ⟨w, _, hr⟩ := Res.bind_eq_ok.1 hr
        cases hr; exact ⟨_, rfl, .done rfl .null .null⟩

theorem exceptionPhase_same (hb : d.badFps = none) {ctx : Mask} {dom : Option Bytes} {mf mf' : Option Filter}
    (hmf : SamePointer SameReport mf mf') {o : Outcome E} (hr : c.exceptionPhase mf url ctx dom = .ok o) :
    ∃ o', d.exceptionPhase mf' url ctx dom = .ok o' ∧ SameOutcome o o' := by
  unfold Client.exceptionPhase at hr ⊢
  obtain ⟨n, hn, hr⟩ := Res.bind_eq_ok.1 hr
  obtain ⟨n', hn', sn⟩ := noFpPhase_same hc h ht hu ⟨by simp, by simp⟩ ⟨by simp, by simp⟩ ⟨by simp, by simp⟩ hn
  rw [hn', Res.bind_ok]
  cases sn with
  | @some f g hfg => cases hr; exact ⟨_, rfl, rfl, hmf, .some (.inl hfg)⟩
  | null =>
    simp only at hr ⊢
    obtain ⟨x, hx, hr⟩ := Res.bind_eq_ok.1 hr
    unfold Client.callMatchNoBloom at hx ⊢
    obtain ⟨y, hy, hm, hf⟩ := hostMiss_same ht h.hostExceptionSet hc.hostExceptionSet hx
    rw [hy, Res.bind_ok, h.exceptionBloom, hm]
    split
    · rename_i hq; rw [if_pos hq] at hr; cases hr
      exact ⟨_, rfl, rfl, hmf, report_entry hf⟩
    rename_i hq; rw [if_neg hq] at hr
    split
    · rename_i hq2; rw [if_pos hq2] at hr; cases hr
      exact ⟨_, rfl, rfl, hmf, report_entry hf⟩
    rename_i hq2; rw [if_neg hq2] at hr
    unfold Client.callMatch at hr ⊢
    obtain ⟨z, hz, hr⟩ := Res.bind_eq_ok.1 hr
    obtain ⟨z', hz', sz⟩ := list_same hc h ht hu .exception ⟨by simp, by simp⟩ hz
    rw [hz', Res.bind_ok]
    cases sz with
    | @some f g hfg => cases hr; exact ⟨_, rfl, rfl, hmf, .some (.inl hfg)⟩
    | null =>
      simp only [hb] at hr ⊢
      cases hcb : c.badFps with
      | none => rw [hcb] at hr; cases hr; exact ⟨_, rfl, rfl, hmf, .null⟩
      | some bf =>
        rw [hcb] at hr
        obtain ⟨w, _, hr⟩ := Res.bind_eq_ok.1 hr
        cases hr; exact ⟨_, rfl, rfl, hmf, .null⟩

theorem query_same (hb : d.badFps = none) {ctx : Mask} {dom : Option Bytes} {o : Outcome E}
    (hr : c.query url ctx dom = .ok o) : ∃ o', d.query url ctx dom = .ok o' ∧ SameOutcome o o' := by
  unfold Client.query at hr ⊢
  obtain ⟨p, hp, hr⟩ := Res.bind_eq_ok.1 hr
  rw [hp, Res.bind_ok]
  split
  · rename_i hq; rw [if_pos hq] at hr; cases hr; exact ⟨_, rfl, rfl, .null, .null⟩
  rename_i hq; rw [if_neg hq] at hr
  obtain ⟨x, hx, hr⟩ := Res.bind_eq_ok.1 hr
  obtain ⟨y, hy, sxy⟩ := blockPhase_same hc h ht hu hb hx
  simp only [hy, Res.bind_ok]
  cases sxy with
  | done h1 h2 h3 => cases hr; exact ⟨_, rfl, h1, h2, h3⟩
  | hit hf => exact exceptionPhase_same hc h ht hu hb hf hr

theorem firstInLists_same {ctx : Mask} {dom : Option Bytes} {bloom : Option (Bytes → Bool)} {ids : List ListId}
    (hid : ∀ id ∈ ids, id ≠ .cosmetic ∧ id ≠ .html) {r : Option Filter}
    (hr : firstInLists c.tags (fun f => f.matches url ctx dom bloom) (ids.map c.lists) = .ok r) :
    ∃ r', firstInLists d.tags (fun f => f.matches url ctx dom bloom) (ids.map d.lists) = .ok r' ∧
      SamePointer SameRule r r' := by
  induction ids with
  | nil => cases hr; exact ⟨_, rfl, .null⟩
  | cons id ids ihd =>
    simp only [firstInLists, List.map_cons] at hr ⊢
    obtain ⟨x, hx, hr⟩ := Res.bind_eq_ok.1 hr
    obtain ⟨y, hy, sxy⟩ := list_same hc h ht hu id (hid id (by simp)) hx
    rw [hy, Res.bind_ok]
    cases sxy with
    | @some f g hfg => cases hr; exact ⟨_, rfl, .some hfg⟩
    | null => exact ihd (fun i hi => hid i (by simp [hi])) hr

theorem find_same_client {ctx : Mask} {dom : Option Bytes} {o : Found}
    (hr : c.findMatchingFilters url ctx dom = .ok o) :
    ∃ o', d.findMatchingFilters url ctx dom = .ok o' ∧ SameFound o o' := by
  rw [find_orTry] at hr ⊢
  unfold Client.callMatchNoBloom at hr ⊢
  have set : ∀ {s t : Option (HSet Filter)}, SamePointer (SameSet SameEntry) s t → (∀ x, s = some x → BareSet x) →
      ∀ {r}, SetRes.found <$> isHostAnchoredHashSetMiss E c.tags
        (fun f => f.matches url (resolveContext url ctx dom) dom none) s (getUrlHost url) = .ok r →
      ∃ r', SetRes.found <$> isHostAnchoredHashSetMiss E d.tags
        (fun f => f.matches url (resolveContext url ctx dom) dom none) t (getUrlHost url) = .ok r' ∧
        SamePointer SameReport r r' := by
    intro s t hst hs r hr
    obtain ⟨z, hz, rfl⟩ := Res.map_eq_ok.1 hr
    obtain ⟨z', hz', _, hf⟩ := hostMiss_same ht hst hs hz
    rw [hz', Res.map_ok]
    exact ⟨_, rfl, report_entry hf⟩
  obtain ⟨x, hx, hr⟩ := Res.bind_eq_ok.1 hr
  obtain ⟨y, hy, sxy⟩ := firstInLists_same hc h ht hu (ids := [.noFp, .noFpDomain, .noFpAntiDomain, .filters])
    (by simp) hx
  simp only [List.map_cons, List.map_nil] at hy
  rw [hy, Res.bind_ok]
  obtain ⟨mf, hmf, hr⟩ := Res.bind_eq_ok.1 hr
  obtain ⟨mf', hmf', smf⟩ := orTry_same (report_rule sxy) (fun hr => set h.hostSet hc.hostSet hr) hmf
  rw [hmf', Res.bind_ok]
  cases smf with
  | null => cases hr; exact ⟨_, rfl, rfl, .null, .null⟩
  | @some f g hfg =>
    simp only at hr ⊢
    obtain ⟨e1, he1, hr⟩ := Res.bind_eq_ok.1 hr
    obtain ⟨e1', he1', s1⟩ := firstInLists_same hc h ht hu
      (ids := [.noFpException, .noFpDomainException, .noFpAntiDomainException]) (by simp) he1
    simp only [List.map_cons, List.map_nil] at he1'
    rw [he1', Res.bind_ok]
    obtain ⟨e2, he2, hr⟩ := Res.bind_eq_ok.1 hr
    obtain ⟨e2', he2', s2⟩ := orTry_same (report_rule s1) (fun hr => set h.hostExceptionSet hc.hostExceptionSet hr) he2
    rw [he2', Res.bind_ok]
    obtain ⟨e3, he3, hr⟩ := Res.bind_eq_ok.1 hr
    obtain ⟨e3', he3', s3⟩ := orTry_same s2 (fun hr =>
      (list_same hc h ht hu .exception ⟨by simp, by simp⟩ hr).imp fun _ h => ⟨h.1, report_rule h.2⟩) he3
    rw [he3', Res.bind_ok]
    cases hr
    exact ⟨_, rfl, SamePointer.isNone s3, .some hfg, s3⟩

end

end AdBlock
