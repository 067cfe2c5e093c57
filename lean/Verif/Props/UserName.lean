import Verif.Props.HostRule
import Verif.Props.Covered
/-
Addresses with user names and passwords, and those of blobs.
-/
namespace AdBlock
open Spec

theorem sameSite_user {h user host : Bytes} (hh : ch%'@' ∉ h) (hs : SameSite h (user ++ ch%'@' :: host)) : SameSite h host := by
  rcases hs with rfl | ⟨x, hx⟩
  · simp at hh
  · rcases List.append_eq_append_iff.1 hx with ⟨a, rfl, ha⟩ | ⟨a, rfl, ha⟩
    · cases a with
      | nil => cases ha
      | cons c a =>
        simp only [List.cons_append, List.cons.injEq] at ha
        exact .inr ⟨a, ha.2⟩
    · cases a with
      | nil => cases ha
      | cons c a =>
        simp only [List.cons_append, List.cons.injEq] at ha
        exact absurd (ha.2 ▸ by simp) hh

/-- The addresses are what they are to be. -/
theorem withUser_url (user : Bytes) (q : Request) : (q.withUser user).url = q.scheme ++ bs%"://" ++ user ++ bs%"@" ++ q.host ++ q.rest := by
  simp [Request.withUser, Request.url]

theorem withPassword_url (user password : Bytes) (q : Request) :
    (q.withPassword user password).url = q.scheme ++ bs%"://" ++ user ++ bs%":" ++ password ++ bs%"@" ++ q.host ++ q.rest := by
  simp [Request.withPassword, Request.url]

/-- **C90**, as far as it holds: a rule or exception for another host makes no difference to a request with a user name (and no password) in
the address. -/
theorem C90_other_host_partial {E : Env} {A B : Bytes} {before after : List RuleText} {r : RuleText} (hA : Lists E A (before ++ after))
    (hB : Lists E B (before ++ r :: after)) (hr : r.anchor = .host ∧ r.rightBar = false) (hat : ch%'@' ∉ r.hostPart) {q : Request} {user : Bytes}
    (hhost : ¬ SameSite r.hostPart q.host) (hm : ¬ Meddles E.bad r after (q.withUser user)) (tags : List Bytes) (preserve preserve' : Bool)
    (hq : Askable E (before ++ r :: after) (q.withUser user)) :
    ∃ b, Answers E A preserve tags (q.withUser user) b ∧ Answers E B preserve' tags (q.withUser user) b := by
  refine C84_rule_does_not_apply_partial hA hB (fun ha => hhost ?_) hm preserve preserve' hq
  have hf := ha.2.2.2.2
  unfold RuleText.AddressFits at hf
  simp only [hr.1, hr.2] at hf
  exact sameSite_user hat hf.1

/-- **C90**, as far as it holds: the rule `||h^` also blocks requests to subdomains of `h` with a user name (and no password) in the
address. -/
theorem C90_subdomain_partial (E : Env) {h tl : Bytes} (hh : HostName h) (he : HostEnd tl) (hlen : h.length ≤ 2044) (hdot : ch%'.' ∈ h) : ∃ c,
    (Client.fresh E).parse (bs%"||" ++ h ++ tl) false = .ok c ∧ ∀ (q : Request) (user sub : Bytes), q.Web → (∀ x ∈ user, ¬ IsSep x) → 0 ∉ user →
      q.host = sub ++ ch%'.' :: h → ∀ co dom, has co FODocument = false → ∃ o, c.query (q.withUser user).url co dom = .ok o ∧ o.block = true := by
  obtain ⟨c, h1, h2⟩ := C34_host_rule_blocks hh he E hlen
  refine ⟨c, h1, fun q user sub hq hu h0 hsub co dom hdoc => h2 _ ⟨⟨q.scheme, user ++ ch%'@' :: sub ++ bs%".", q.rest, ?_, hq.scheme, ?_, hq.rest⟩, ?_⟩
    co dom hdoc⟩
  · rw [withUser_url, hsub]
    simp
  · refine .inr ⟨_, rfl, fun x hx => ?_, hdot⟩
    rcases List.mem_append.1 hx with hx | hx
    · exact hu x hx
    · rcases List.mem_cons.1 hx with rfl | hx
      · decide +kernel
      · exact hq.host.2 x (by rw [hsub]; simp [hx])
  · rw [withUser_url]
    have hs : 0 ∉ q.scheme := by
      intro hm
      have h3 : lower 0 ∈ q.scheme.map lower := List.mem_map.2 ⟨_, hm, rfl⟩
      have key : ∀ s ∈ [bs%"http", bs%"https", bs%"ws", bs%"wss"], lower 0 ∉ s := by decide
      exact key _ hq.scheme h3
    simp [hs, h0, hq.text.1, hq.text.2]

/-! ### counterexamples -/

/-- **C90** fails for the host of a rule itself: `||ads.com^` does not apply to `http://me@ads.com/`. -/
theorem C90_user_counterexample {E : Env} (hroll : ∀ url, E.fp.rolls url) : Answers E bs%"||ads.com^" false [] exAds true ∧
    Answers E bs%"||ads.com^" false [] (exAds.withUser bs%"me") false := by
  have hw : (exAds.withUser bs%"me").Web :=
    ⟨exAds_web.scheme, ⟨by decide +kernel, by decide +kernel⟩, exAds_web.rest, by decide +kernel, exAds_web.type⟩
  exact ⟨answers_compared (v := true) (r := { anchor := .host, text := bs%"ads.com^" }) hroll (by decide +kernel) rfl
      (.inr (by decide +kernel)) (by decide +kernel) (by decide +kernel) exAds_web (by decide +kernel),
    answers_compared (v := false) (r := { anchor := .host, text := bs%"ads.com^" }) hroll (by decide +kernel) rfl
      (.inr (by decide +kernel)) (by decide +kernel) (by decide +kernel) hw (by decide +kernel)⟩

theorem exPassword_web : (exAds.withPassword bs%"good.com" bs%"x").Web :=
  ⟨exAds_web.scheme, ⟨by decide +kernel, by decide +kernel⟩, .inr ⟨ch%':', bs%"x@ads.com/", rfl, by decide +kernel⟩, by decide +kernel, exAds_web.type⟩

def exGood : RuleText := { exception := true, anchor := .host, text := bs%"good.com^" }
def exAdsPath : RuleText := { text := bs%"ads.com" }

/-- **C90** fails for passwords: the user name is taken for the host, so that an exception for `good.com` also applies to
`http://good.com:x@ads.com/`. -/
theorem C90_password_counterexample {E : Env} (hroll : ∀ url, E.fp.rolls url) :
    Answers E bs%"ads.com\n@@||good.com^" false [] exAds true ∧
    Answers E bs%"ads.com\n@@||good.com^" false [] (exAds.withPassword bs%"good.com" bs%"x") false := by
  have hp : ∀ r ∈ [exAdsPath, exGood], plainRule r = true := by decide +kernel
  constructor
  · obtain ⟨b, h1, h2⟩ := answers_iff (lists_rules (E := E) (plainRules_sound hp) (by simp)) false [] (plainRules_askable hroll hp exAds_web)
    have : b = true := by
      rw [h2]
      refine ⟨⟨exAdsPath, by simp, rfl, reliable_counted ⟨fun h => absurd h (by decide +kernel), .inl (by decide +kernel)⟩ _,
        (applies_compared (v := true) (by decide +kernel) exAds_web (by decide +kernel) (by decide +kernel) []).2 rfl⟩, ?_⟩
      rintro ⟨r, hr, he, -, ha⟩
      simp only [List.mem_cons, List.not_mem_nil, or_false] at hr
      rcases hr with rfl | rfl
      · cases he
      · rw [applies_compared (v := false) (by decide +kernel) exAds_web (by decide +kernel) (by decide +kernel)] at ha
        cases ha
    exact this ▸ h1
  · obtain ⟨b, h1, h2⟩ := answers_iff (lists_rules (E := E) (plainRules_sound hp) (by simp)) false [] (plainRules_askable hroll hp exPassword_web)
    have : b = false := by
      cases b with
      | false => rfl
      | true =>
        refine absurd ⟨exGood, by simp, rfl, reliable_counted ⟨fun _ => ⟨by decide +kernel, [exAdsPath], [], rfl, ?_⟩, .inl (by decide +kernel)⟩ _,
          (applies_compared (v := true) (by decide +kernel) exPassword_web (by decide +kernel) (by decide +kernel) []).2 rfl⟩ (h2.1 rfl).2
        intro r hr
        simp only [List.mem_cons, List.not_mem_nil, or_false] at hr
        subst hr
        exact fun h => absurd h.2.1 (by decide)
    exact this ▸ h1

/-- **C90** fails for blobs: the protocol is taken for the host. -/
theorem C90_blob_counterexample : (getUrlHost bs%"blob:http://ads.com/1-2-3" = bs%"http") ∧
    ((Client.fresh toyEnv).parse bs%"||ads.com^" false >>= fun c => Outcome.block <$> c.query bs%"blob:http://ads.com/1-2-3" 0 none) = .ok false ∧
    ((Client.fresh toyEnv).parse bs%"||ads.com^" false >>= fun c => Outcome.block <$> c.query bs%"http://ads.com/1-2-3" 0 none) = .ok true := by
  decide +kernel

/-- **C90**, an example: the exception for another host. -/
example {E : Env} (hroll : ∀ url, E.fp.rolls url) : ∃ b, Answers E bs%"ads.com" false [] (exAds.withUser bs%"good.com") b ∧
    Answers E bs%"ads.com\n@@||good.com^" true [] (exAds.withUser bs%"good.com") b := by
  have hw : (exAds.withUser bs%"good.com").Web :=
    ⟨exAds_web.scheme, ⟨by decide +kernel, by decide +kernel⟩, exAds_web.rest, by decide +kernel, exAds_web.type⟩
  have hp : ∀ r ∈ [exAdsPath, exGood], plainRule r = true := by decide +kernel
  have hs : ¬ SameSite bs%"good.com" bs%"ads.com" := by
    rintro (h | ⟨x, h⟩)
    · exact absurd h (by decide)
    · have := congrArg List.length h
      simp at this
  refine C90_other_host_partial (before := [exAdsPath]) (after := []) (r := exGood)
    (lists_rules (plainRules_sound fun r hr => hp r (by simp at hr; simp [hr])) (by simp)) (lists_rules (plainRules_sound hp) (by simp)) ⟨rfl, rfl⟩
    (by decide +kernel) ?_ ?_ [] false true (plainRules_askable hroll hp hw)
  · rw [show exGood.hostPart = bs%"good.com" by decide +kernel]
    exact hs
  · rintro (⟨-, y, h, -⟩ | ⟨-, dl, h, -⟩)
    · cases h
    · exact absurd h.1 (by rw [show exGood.value bs%"domain=" = none by decide +kernel]; simp)

end AdBlock
