import Verif.SpecProgramsExact
import Verif.Props.Programs
import Verif.Props.Exact
import Verif.Props.Locality
import Verif.Props.NodeTextExact
/-
C63 and C73 exactly: data files, main.cc and perf.cc for all lists that can be loaded and saved, with the rules that count.
-/
namespace AdBlock
open Spec

/-- the requests that can be compared with the rules -/
def Asked (bad : List Bytes) (rs : List RuleText) (q : Request) : Prop := Spec.Comparable rs q ∧ (q.domain = none → NoEmptyDomain bad rs)

theorem goesExactly_iff {E : Env} {c : Client E} {rs : List RuleText} :
    GoesExactlyBy c rs ↔ Answering c (Asked E.bad rs) (BlockedExactly E.bad rs) :=
  ⟨fun h q hq ha hroll => h q hq ha.1 ha.2 hroll, fun h q hq h1 h2 hroll => h q hq ⟨h1, h2⟩ hroll⟩

theorem servesExactly_of {E : Env} {data : Bytes} {rs : List RuleText}
    (h : ∃ d : Client E, makeClientFromData E data = .ok (some d) ∧ Answering d (Asked E.bad rs) (BlockedExactly E.bad rs)) :
    ServesExactly E data rs := by
  obtain ⟨d, h1, h2⟩ := h
  exact ⟨d, h1, goesExactly_iff.2 h2⟩

/-- a client with these lists goes by the rules in them that count -/
theorem texts_exactly {E : Env} {texts : List Bytes} {rss : List (List RuleText)} (ht : TextsOf texts rss)
    (hs : SoundList E.bad rss.flatten) {c : Client E} (hist : History E c []) (htag : c.tags = []) (pr : Bool) :
    ∃ c' gs, texts.foldlM (fun c text => c.parse text pr) c = .ok c' ∧ History E c' gs ∧ c'.tags = [] ∧
      Answering c' (Asked E.bad rss.flatten) (BlockedExactly E.bad rss.flatten) ∧
      (Pointwise SavableList texts rss → ∀ f ∈ gs, LeftOut true true f ∨ Representable f) := by
  obtain ⟨c', gs, h1, h2, h3, h4, h5⟩ := load_each ht hist hs pr
  rw [List.nil_append] at h2
  refine ⟨c', gs, h1, h2, h4.trans htag, fun q hq ha hroll => ?_, h5⟩
  have hin : InOrder c' { rules := rss.flatten } gs := ⟨h2, h3, hs, by rw [h4, htag]; exact List.nodup_nil, by rw [h4, htag]; exact fun t => Iff.rfl⟩
  obtain ⟨o, ho, hv⟩ := inOrder_matches hin hq ha.1 ha.2 hroll
  exact ⟨o, ho, hv.blocked⟩

theorem asked_page {bad : List Bytes} {rs : List RuleText} {q : Request} {page : Bytes} (h : Spec.Comparable rs q) (hd : q.domain = some page) :
    Asked bad rs q :=
  ⟨h, fun hn => by rw [hd] at hn; cases hn⟩

theorem comparable_sublist {rs rs' : List RuleText} {q : Request} (h : Spec.Comparable rs q) (hsub : ∀ r ∈ rs', r ∈ rs) : Spec.Comparable rs' q :=
  ⟨fun r hr => h.inBounds r (hsub r hr)⟩

/-- **C63** from the text of the rules, exactly, for all lists that can be loaded and saved: a file is made of the texts, and a client
made from it answers every request by the rules in the texts that count. -/
theorem C63_text_exact (E : Env) (hE : FixedBlooms E) (hm : ModerateBlooms E) {texts : List Bytes} {rss : List (List RuleText)}
    (ht : TextsOf texts rss) (hs : SoundList E.bad rss.flatten) (hsave : SavableTexts texts rss)
    {sites : List Request} (hq : ∀ q ∈ sites, q.Web ∧ Spec.Comparable rss.flatten q ∧ E.fp.rolls q.url ∧ q.type = none ∧ q.domain = some bs%"slashdot.org") :
    ∃ r, generateDataFile E texts (sites.map Request.url) = .ok r ∧ ServesExactly E r.data rss.flatten := by
  obtain ⟨c, gs, h1, h2, h3, h4, h5⟩ := texts_exactly ht hs (.new (E := E)) rfl false
  have h0 := textsOf_nul ht
  obtain ⟨r, e1, e2⟩ := file_answering h0 h1 h2 h3 (h5 hsave.1) (texts_fit hE hm h0 h1 hsave.2) h4
    fun q h => ⟨(hq q h).1, asked_page (hq q h).2.1 (hq q h).2.2.2.2, (hq q h).2.2⟩
  exact ⟨r, e1, servesExactly_of e2⟩

/-- **C73** for the sample program, exactly, for all lists that can be loaded and saved: for each of its requests it
prints twice whether it is to be blocked by the rules about advertising (or malware, respectively) that count, and the files it
writes serve for clients that go by these rules. -/
theorem C73_sample_exact (E : Env) (hE : FixedBlooms E) (hm : ModerateBlooms E) {readFile : Bytes → Option Bytes} {t : SampleTexts}
    (hf : FilesAre readFile t) {ads malware : List (List RuleText)}
    (ht : TextsOf (adTexts t) ads) (hs : SoundList E.bad ads.flatten) (hsave : SavableTexts (adTexts t) ads)
    (ht' : TextsOf (malwareTexts t) malware) (hs' : SoundList E.bad malware.flatten) (hsave' : SavableTexts (malwareTexts t) malware)
    (hc : ∀ q ∈ adRequests, Spec.Comparable ads.flatten q) (hc' : ∀ q ∈ malwareRequests, Spec.Comparable malware.flatten q)
    (hroll : ∀ q ∈ adRequests ++ malwareRequests, E.fp.rolls q.url) :
    ∃ a m, sampleMain E readFile = some (.ok (a, m)) ∧
      (Pointwise (fun q b => b = true ↔ BlockedExactly E.bad ads.flatten q) adRequests a.first ∧ a.second = some a.first ∧
        ServesExactly E a.data ads.flatten) ∧
      Pointwise (fun q b => b = true ↔ BlockedExactly E.bad malware.flatten q) malwareRequests m.first ∧ m.second = some m.first ∧
        ServesExactly E m.data malware.flatten := by
  obtain ⟨c, gs, h1, h2, h3, h4, h5⟩ := texts_exactly ht hs (.new (E := E)) rfl false
  obtain ⟨a, e1, e2, e3, e4⟩ := checked_answering h2 h3 (h5 hsave.1) (texts_fit hE hm (textsOf_nul ht) h1 hsave.2) h4 (qs := adRequests) fun q h =>
    have h' := List.mem_append_left malwareRequests h; ⟨h', asked_page (hc q h) (sample_web h').2.2, hroll q h'⟩
  obtain ⟨c', gs', k1, k2, k3, k4, k5⟩ := texts_exactly ht' hs' (.new (E := E)) rfl false
  obtain ⟨m, g1, g2, g3, g4⟩ := checked_answering k2 k3 (k5 hsave'.1) (texts_fit hE hm (textsOf_nul ht') k1 hsave'.2) k4 (qs := malwareRequests)
    fun q h => have h' := List.mem_append_right adRequests h; ⟨h', asked_page (hc' q h) (sample_web h').2.2, hroll q h'⟩
  exact ⟨a, m, sampleMain_ok hf h1 e1 k1 g1, ⟨e2, e3, servesExactly_of e4⟩, g2, g3, servesExactly_of g4⟩

/-- **C73** for the benchmark, exactly, for all lists that can be loaded (and saved, those about advertising): it tells how many of the
addresses in the list of sites are to be blocked by the rules about advertising that count, and how many are not,
and the same for the rules about malware; and the header is as in `C73_perf_partial`. -/
theorem C73_perf_exact (E : Env) (hE : FixedBlooms E) (hm : ModerateBlooms E) {readFile : Bytes → Option Bytes} {t : SampleTexts}
    (hf : FilesAre readFile t) {siteList : Bytes} (hl : readFile bs%"./test/data/sitelist.txt" = some siteList)
    {qs : List Request} (hw : WordsOf siteList (qs.map Request.url))
    {ads malware : List (List RuleText)}
    (hq : ∀ q ∈ qs, q.Web ∧ Spec.Comparable (ads ++ malware).flatten q ∧ E.fp.rolls q.url ∧ q.type = none ∧ q.domain = some bs%"brianbondy.com")
    (ht : TextsOf (adTexts t) ads) (hsave : SavableTexts (adTexts t) ads) (ht' : TextsOf (malwareTexts t) malware)
    (hs : SoundList E.bad (ads ++ malware).flatten) :
    ∃ r, perfMain E readFile = some (.ok (some r)) ∧
      (r.adBlock.matching = howMany (BlockedExactly E.bad ads.flatten) qs ∧
        r.adBlock.skipped = howMany (fun q => ¬ BlockedExactly E.bad ads.flatten q) qs) ∧
      (r.safeBrowsing.matching = howMany (BlockedExactly E.bad malware.flatten) qs ∧
        r.safeBrowsing.skipped = howMany (fun q => ¬ BlockedExactly E.bad malware.flatten q) qs) ∧
      ((∀ w ∈ E.bad, LiteralText w) → (∀ q ∈ qs, LiteralText q.url) → ∃ l, firstArray r.header = some l ∧ l.Nodup ∧
        (∀ w ∈ E.bad, w ∈ l) ∧ ∀ w ∈ l, w ∈ E.bad ∨ w.length = 6 ∧ ∃ q ∈ qs, w <:+: q.url) := by
  rw [show adTexts t = t.ads from rfl] at ht hsave
  rw [show malwareTexts t = t.malware from rfl] at ht'
  have subA : ∀ r ∈ ads.flatten, r ∈ (ads ++ malware).flatten := fun r hr => by
    rw [List.flatten_append]; exact List.mem_append_left _ hr
  have subM : ∀ r ∈ malware.flatten, r ∈ (ads ++ malware).flatten := fun r hr => by
    rw [List.flatten_append]; exact List.mem_append_right _ hr
  obtain ⟨c, gs, a1, a2, a3, a4, a5⟩ := texts_exactly ht (soundList_subset hs subA) (.new (E := E)) rfl false
  obtain ⟨m, gs', b1, b2, b3, b4, -⟩ := texts_exactly ht' (soundList_subset hs subM) (.new (E := E)) rfl false
  obtain ⟨e, gs'', c1, c2, c3, c4, -⟩ := texts_exactly (textsOf_append ht ht') hs
    (History.enableBadFingerprintDetection (.new (E := E))) rfl false
  exact perfMain_ok hf hl hw (fun q h => ⟨(hq q h).1,
      ⟨asked_page (comparable_sublist (hq q h).2.1 subA) (hq q h).2.2.2.2, asked_page (comparable_sublist (hq q h).2.1 subM) (hq q h).2.2.2.2,
        asked_page (hq q h).2.1 (hq q h).2.2.2.2⟩, (hq q h).2.2⟩)
    a1 a2 a3 (a5 hsave.1) (texts_fit hE hm (textsOf_nul ht) a1 hsave.2) a4 b1 b4 c1 c4

/-! ### An example -/

/-- two lists with a rule for the same host; the first rule is for the pages of one site -/
private def exTexts2 : SampleTexts where
  easyList := bs%"||googlesyndication.com^$domain=news.com\n"
  easyPrivacy := bs%"||googlesyndication.com^\n"
  ublockUnbreak := []
  braveUnbreak := []
  spam404 := bs%"||freexblcode.com^\n"
  disconnectMalware := []

private def exFirst : RuleText := { anchor := .host, text := bs%"googlesyndication.com^", options := some bs%"domain=news.com" }
private def exSecond : RuleText := { anchor := .host, text := bs%"googlesyndication.com^" }
private def exMalware2 : RuleText := { anchor := .host, text := bs%"freexblcode.com^" }

private theorem exEmpty : ListOf [[]] [] := .idle (.inl ⟨by decide, by simp⟩) .nil

private theorem exTexts2_ads : TextsOf (adTexts exTexts2) [[exFirst], [exSecond], [], []] := by
  refine .cons ⟨by decide +kernel, ?_⟩ (.cons ⟨by decide +kernel, ?_⟩ (.cons ⟨by decide, exEmpty⟩ (.cons ⟨by decide, exEmpty⟩ .nil)))
  · rw [show Spec.lines exTexts2.easyList = [exFirst.line, []] by decide +kernel]
    exact .rule _ exEmpty
  · rw [show Spec.lines exTexts2.easyPrivacy = [exSecond.line, []] by decide +kernel]
    exact .rule _ exEmpty

private theorem exTexts2_malware : TextsOf (malwareTexts exTexts2) [[exMalware2], []] := by
  refine .cons ⟨by decide +kernel, ?_⟩ (.cons ⟨by decide, exEmpty⟩ .nil)
  rw [show Spec.lines exTexts2.spam404 = [exMalware2.line, []] by decide +kernel]
  exact .rule _ exEmpty

private theorem exSavable2 {text : Bytes} {rs : List RuleText} (h1 : ∀ r ∈ rs, r ∈ [exFirst, exSecond, exMalware2])
    (h2 : ∀ l ∈ [bs%"//", bs%" /", bs%"\t/"], l ∉ Spec.lines text) (h3 : text.length ≤ 1000) : SavableList text rs := by
  refine ⟨fun r hr => (by decide +kernel : ∀ r ∈ [exFirst, exSecond, exMalware2], r.text ≠ []) r (h1 r hr), fun r hr dl hdl => ?_, h2,
    Nat.lt_of_le_of_lt h3 (by decide)⟩
  have key := (by decide +kernel : ∀ r ∈ [exFirst, exSecond, exMalware2], r.value bs%"domain=" = none ∨ r.value bs%"domain=" = some bs%"news.com") r (h1 r hr)
  rw [hdl] at key
  rcases key with key | key
  · cases key
  · cases key
    exact ⟨by decide, fun _ => by decide +kernel⟩

private theorem exPlain2 : ∀ r ∈ [exFirst, exSecond, exMalware2], plainRule r = true := by decide +kernel

/-- The second rule does not count. -/
private theorem exSecond_void (q : Request) : ¬ HostCounted [exFirst, exSecond] q exSecond := by
  intro h
  obtain ⟨⟨before, after, e, h1⟩, -⟩ := h (by decide +kernel)
  cases before with
  | nil => injection e with e _; exact absurd (congrArg RuleText.options e) (by decide)
  | cons r before =>
    rw [List.cons_append] at e
    injection e with e _
    subst e
    exact h1 exFirst (by simp) (by decide +kernel)

private def exActs2 (q : Request) : Bool := q.host == bs%"freexblcode.com"

private theorem pointwise_bools {B : Request → Prop} {v : Request → Bool} {qs : List Request} (hv : ∀ q ∈ qs, B q ↔ v q = true) {bs : List Bool}
    (h : Pointwise (fun q b => b = true ↔ B q) qs bs) : bs = qs.map v := by
  induction h with
  | nil => rfl
  | @cons q b qs bs h _ ih =>
    rw [List.map_cons, ← ih fun q h => hv q (by simp [h])]
    rw [hv q (by simp), ← Bool.eq_iff_iff] at h
    rw [h]

/-- **C73** fails, like C59, if a list has another rule for the same host before: the sample program prints that none of its requests
about advertising is to be blocked, although the second list has a rule that applies to the first of them, and there is no exception. -/
theorem C73_second_list_counterexample : ∃ (t : SampleTexts) (ads : List (List RuleText)), TextsOf (adTexts t) ads ∧
    (∃ q, adRequests.head? = some q ∧ Blocked ads.flatten q) ∧
    ∀ (E : Env) (readFile : Bytes → Option Bytes), FixedBlooms E → ModerateBlooms E → (∀ url, E.fp.rolls url) → FilesAre readFile t →
      ∃ a m, sampleMain E readFile = some (.ok (a, m)) ∧ a.first = [false, false, false, false] ∧ a.second = some a.first ∧
        m.first = [true, false, false] := by
  have web : ∀ q ∈ adRequests, q.Web := fun q h => (sample_web (List.mem_append_left _ h)).1
  have web' : ∀ q ∈ malwareRequests, q.Web := fun q h => (sample_web (List.mem_append_right _ h)).1
  have hp : ∀ r ∈ [exFirst, exSecond], plainRule r = true := fun r hr => exPlain2 r (by
    simp only [List.mem_cons, List.not_mem_nil, or_false] at hr ⊢; rcases hr with rfl | rfl <;> simp)
  have hp' : ∀ r ∈ [exMalware2], plainRule r = true := fun r hr => exPlain2 r (by simp at hr; simp [hr])
  refine ⟨exTexts2, _, exTexts2_ads, ⟨_, rfl, ⟨exSecond, by simp, rfl, ?_⟩, ?_⟩, fun E readFile hE hm hroll hf => ?_⟩
  · exact (applies_compared (v := true) (hp _ (by simp)) (web _ (by simp [adRequests])) (by decide +kernel) (by decide +kernel) []).2 rfl
  · rintro ⟨r, hr, he, -⟩
    exact absurd he (by rw [(by decide +kernel : ∀ r ∈ [[exFirst], [exSecond], [], []].flatten, r.exception = false) r hr]; decide)
  have nil : SavableList [] [] := exSavable2 (by simp) (by decide +kernel) (by decide)
  obtain ⟨a, m, h1, ⟨h2, h3, -⟩, h4, -⟩ := C73_sample_exact E hE hm hf exTexts2_ads (plainRules_sound hp)
    ⟨.cons (exSavable2 (by simp) (by decide +kernel) (by decide +kernel)) (.cons (exSavable2 (by simp) (by decide +kernel) (by decide +kernel))
      (.cons nil (.cons nil .nil))), Nat.le_trans (show _ ≤ 1000 by decide +kernel) (by decide)⟩
    exTexts2_malware (plainRules_sound hp')
    ⟨.cons (exSavable2 (by simp) (by decide +kernel) (by decide +kernel)) (.cons nil .nil), Nat.le_trans (show _ ≤ 1000 by decide +kernel) (by decide)⟩
    (fun q h => plainRules_safe hp (web q h)) (fun q h => plainRules_safe hp' (web' q h)) fun q _ => hroll _
  have no : ∀ q ∈ adRequests, ¬ BlockedExactly E.bad [exFirst, exSecond] q := by
    rintro q hq ⟨⟨r, hr, -, hc, ha⟩, -⟩
    simp only [List.mem_cons, List.not_mem_nil, or_false] at hr
    rcases hr with rfl | rfl
    · have key : ∀ q ∈ adRequests, (exFirst.filter false).matches q.url (resolveContext q.url q.context q.domain) q.domain none = .ok false := by
        decide +kernel
      cases (applies_compared (v := false) (hp _ (by simp)) (web q hq) (key q hq) (by decide +kernel) []).1 ha
    · exact exSecond_void q hc.host
  have judge : ∀ q ∈ malwareRequests, BlockedExactly E.bad [exMalware2] q ↔ exActs2 q = true := by
    intro q hq
    have key : ∀ q ∈ malwareRequests, (exMalware2.filter false).matches q.url (resolveContext q.url q.context q.domain) q.domain none = .ok (exActs2 q) := by
      decide +kernel
    have applies := applies_compared (v := exActs2 q) (hp' _ (by simp)) (web' q hq) (key q hq) (by decide +kernel) []
    constructor
    · rintro ⟨⟨r, hr, -, -, ha⟩, -⟩
      rw [List.mem_singleton.1 hr] at ha
      exact applies.1 ha
    · intro h
      refine ⟨⟨exMalware2, by simp, rfl, ⟨fun _ => ⟨⟨[], [], rfl, by simp⟩, .inr (by decide +kernel)⟩, fun dl h => (by cases h.1), fun dl h => (by cases h.1)⟩,
        applies.2 h⟩, ?_⟩
      rintro ⟨r, hr, he, -⟩
      rw [List.mem_singleton.1 hr] at he
      cases he
  refine ⟨a, m, h1, ?_, h3, ?_⟩
  · rw [pointwise_bools (v := fun _ => false) (fun q hq => by simpa using no q hq) h2]; rfl
  · rw [pointwise_bools judge h4]; decide +kernel

end AdBlock
