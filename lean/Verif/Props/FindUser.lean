import Verif.Props.FindListLaws
import Verif.Props.UserName
import Verif.Props.SameData
/-
Addresses with user names (C114), and lists which are saved as the same data (C110), for `findMatchingFilters`.
-/
namespace AdBlock
open Spec

/-- **C114**, as far as it holds: a rule or exception for another host makes no difference to `findMatchingFilters` for a request with a user name (and no
password) in the address (see C90), unless it consists of a host for which there is another such rule behind it. -/
theorem C114_user_partial {E : Env} {A B : Bytes} {before after : List RuleText} {r : RuleText} (hA : Lists E A (before ++ after))
    (hB : Lists E B (before ++ r :: after)) (hr : r.anchor = .host ∧ r.rightBar = false) (hat : ch%'@' ∉ r.hostPart) {q : Request} {user : Bytes}
    (hhost : ¬ SameSite r.hostPart q.host)
    (hm : r.HostOnly → ∀ y ∈ after, ¬ (y.HostOnly ∧ y.exception = r.exception ∧ y.hostPart = r.hostPart)) (tags : List Bytes) (preserve preserve' : Bool)
    (hq : (q.withUser user).Web) (hs : Spec.Comparable (before ++ r :: after) (q.withUser user)) :
    ∃ b, Finds E A preserve tags (q.withUser user) b ∧ Finds E B preserve' tags (q.withUser user) b := by
  refine C113_rule_does_not_apply_partial hA hB (fun ha => hhost ?_) hm preserve preserve' hq hs
  have hf := ha.2.2.2.2
  unfold RuleText.AddressFits at hf
  simp only [hr.1, hr.2] at hf
  exact sameSite_user hat hf.1

/-- **C110**, for the text of lists and `findMatchingFilters`: if new clients which have loaded two lists of rules that can be saved write the same data,
it gives the same answers to all requests, whatever tags are enabled. -/
theorem C110_found_partial {E : Env} (hE : FixedBlooms E) {input input' : Bytes} {rs rs' : List RuleText} (h : Lists E input rs) (h' : Lists E input' rs')
    (hs : SavableList input rs) (hs' : SavableList input' rs') (hlen : input.length + 1 < 2 ^ 31) (hlen' : input'.length + 1 < 2 ^ 31)
    {data : Bytes} (hd : SavedAs E input data) (hd' : SavedAs E input' data)
    (hsize : data.length < 2 ^ 31) (tags : List Bytes) {q : Request} (hq : q.Web) (hc : Spec.Comparable rs q) (hc' : Spec.Comparable rs' q) :
    ∃ b, Finds E input false tags q b ∧ Finds E input' false tags q b := by
  obtain ⟨b, h1, -⟩ := finds_iff h false tags hq hc
  obtain ⟨b', h1', -⟩ := finds_iff h' false tags hq hc'
  refine ⟨b, h1, ?_⟩
  obtain ⟨c, e1, o, e2, e3⟩ := id h1
  obtain ⟨c', e1', o', e2', e3'⟩ := id h1'
  obtain ⟨x, s, k1, k2, k3⟩ := hd
  obtain ⟨x', s', k1', k2', k3'⟩ := hd'
  rw [e1] at k1
  rw [e1'] at k1'
  cases k1
  cases k1'
  obtain ⟨fs, m1, m2, m3, m4, m5⟩ := savable_loaded hE h hs hlen e1 tags
  obtain ⟨fs', m1', m2', m3', m4', m5'⟩ := savable_loaded hE h' hs' hlen' e1' tags
  rw [m5] at k2
  rw [m5'] at k2'
  cases k2
  cases k2'
  have := (C110_answers_partial m1 m1' m2 m2' m3 m3' m4 m4' (k3.trans k3'.symm) (k3 ▸ hsize) (fun t => by
    rw [mem_addTags, mem_addTags, parse_tags e1, parse_tags e1']) q.url (web_url hq).2.2 q.context q.domain).2 o o' e2 e2'
  rw [← e3, this.1, e3']
  exact h1'

/-! ### examples, and what goes wrong otherwise -/

/-- **C114** fails for user names: with one `||ads.com^` is not found (see C90). -/
theorem C114_user_counterexample {E : Env} (hroll : ∀ url, E.fp.rolls url) : Finds E bs%"||ads.com^" false [] exAds true ∧
    Finds E bs%"||ads.com^" false [] (exAds.withUser bs%"me") false := by
  have hw : (exAds.withUser bs%"me").Web :=
    ⟨exAds_web.scheme, ⟨by decide +kernel, by decide +kernel⟩, exAds_web.rest, by decide +kernel, exAds_web.type⟩
  have hp : ∀ r ∈ [({ anchor := .host, text := bs%"ads.com^" } : RuleText)], plainRule r = true := by decide +kernel
  exact ⟨finds_of_answers hroll hp (lists_rules (plainRules_sound hp) (by simp)) (by decide +kernel) exAds_web (C90_user_counterexample hroll).1,
    finds_of_answers hroll hp (lists_rules (plainRules_sound hp) (by simp)) (by decide +kernel) hw (C90_user_counterexample hroll).2⟩

/-- **C114**, an example: the exception for another host. -/
example {E : Env} (hroll : ∀ url, E.fp.rolls url) : ∃ b, Finds E bs%"ads.com" false [] (exAds.withUser bs%"good.com") b ∧
    Finds E bs%"ads.com\n@@||good.com^" true [] (exAds.withUser bs%"good.com") b := by
  let g : RuleText := { exception := true, anchor := .host, text := bs%"good.com^" }
  have hw : (exAds.withUser bs%"good.com").Web :=
    ⟨exAds_web.scheme, ⟨by decide +kernel, by decide +kernel⟩, exAds_web.rest, by decide +kernel, exAds_web.type⟩
  have hp : ∀ r ∈ [({ text := bs%"ads.com" } : RuleText), g], plainRule r = true := by decide +kernel
  refine C114_user_partial (before := [{ text := bs%"ads.com" }]) (after := []) (r := g)
    (lists_rules (plainRules_sound (by decide +kernel)) (by simp)) (lists_rules (rs := [{ text := bs%"ads.com" }, g]) (plainRules_sound hp) (by simp [g])) ⟨rfl, rfl⟩
    (by decide +kernel) ?_ (by simp) [] false true hw (plainRules_askable (E := E) hroll hp hw).safe
  rw [show g.hostPart = bs%"good.com" by decide +kernel]
  rintro (h | ⟨x, h⟩)
  · exact absurd h (by decide)
  · have := congrArg List.length h
    simp [exAds] at this

/-- **C110**, an example: the order of options does not show in the data, nor in what is found. -/
example {q : Request} (hq : q.Web) (tags : List Bytes) : ∃ b, Finds byteEnv bs%"adbanner$third-party,script" false tags q b ∧
    Finds byteEnv bs%"adbanner$script,third-party" false tags q b := by
  let r : RuleText := { text := bs%"adbanner", options := some bs%"third-party,script" }
  let r' : RuleText := { text := bs%"adbanner", options := some bs%"script,third-party" }
  let f : Filter := { data := some (cstr bs%"adbanner"), filterOption := FOThirdParty ||| FOScript }
  have hp : ∀ x ∈ [r], plainRule x = true := by decide +kernel
  have hp' : ∀ x ∈ [r'], plainRule x = true := by decide +kernel
  have roll : ∀ url, byteEnv.fp.rolls url := fun _ => trivial
  have hf : parseFilter byteEnv.bad bs%"adbanner$third-party,script" 0 false true = .ok (f, .addFingerprint bs%"adbann") := by decide +kernel
  have hf' : parseFilter byteEnv.bad bs%"adbanner$script,third-party" 0 false true = .ok (f, .addFingerprint bs%"adbann") := by decide +kernel
  have h1 := parse_oneIndexed (E := byteEnv) (by decide +kernel) hf (by decide +kernel) (by decide +kernel)
  have h1' := parse_oneIndexed (E := byteEnv) (by decide +kernel) hf' (by decide +kernel) (by decide +kernel)
  have r1 : Reads byteEnv.bad false (lines bs%"adbanner$third-party,script") [f] := by
    rw [show lines bs%"adbanner$third-party,script" = [bs%"adbanner$third-party,script"] by decide +kernel]
    exact .cons hf .nil
  have s1 := serialize_eq (history_written (.parse .new (by decide) h1 r1)) true true
  have sav : ∀ (input : Bytes) (x : RuleText), x ∈ [r, r'] → input ∈ [bs%"adbanner$third-party,script", bs%"adbanner$script,third-party"] → SavableList input [x] := by
    intro input x hx hi
    refine ⟨fun y hy => ?_, fun y hy dl hdl => ?_, ?_, ?_⟩
    · rw [List.mem_singleton.1 hy]
      simp only [List.mem_cons, List.not_mem_nil, or_false] at hx
      rcases hx with rfl | rfl <;> decide
    · rw [List.mem_singleton.1 hy] at hdl
      simp only [List.mem_cons, List.not_mem_nil, or_false] at hx
      rcases hx with rfl | rfl
      · exact absurd ((show _ = none by decide +kernel).symm.trans hdl) (by simp)
      · exact absurd ((show _ = none by decide +kernel).symm.trans hdl) (by simp)
    · revert hi
      revert input
      decide +kernel
    · revert hi
      revert input
      decide +kernel
  refine C110_found_partial byteEnv_fixed (lists_rules (plainRules_sound hp) (by simp)) (lists_rules (plainRules_sound hp') (by simp))
    (sav _ _ (by simp) (by decide +kernel)) (sav _ _ (by simp) (by decide +kernel)) (by decide +kernel) (by decide +kernel) (data := (oneIndexed byteEnv f bs%"adbann").bytes true true)
    ⟨_, _, h1, s1, rfl⟩ ⟨_, _, h1', s1, rfl⟩ ?_ tags hq (plainRules_askable (E := byteEnv) roll hp hq).safe (plainRules_askable (E := byteEnv) roll hp' hq).safe
  decide +kernel

end AdBlock
