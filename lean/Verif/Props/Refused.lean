import Verif.SpecRefused
import Verif.Props.History
import Verif.Model.Check
/-
C80: after `deserialize` has returned false.
-/
namespace AdBlock
open Spec

variable {E : Env}

theorem initHashSetInto_eq {T} (de : Ptr → Nat → Res (Option (T × Nat))) (left : HSet T) (p : Ptr) (len : Nat) :
    initHashSet de p len = (fun r => if r.1 then some r.2 else none) <$> initHashSetInto de left p len := by
  unfold initHashSet initHashSetInto
  split
  · rfl
  · cases HSet.deserialize de p len with
    | ub u => rfl
    | ok r => cases r <;> rfl

theorem readSetsInto_eq (left : HSet Bytes) (ns : List Nat) (p : Ptr) :
    readSets ns p = (fun r => if r.1 then some r.2 else none) <$> readSetsInto left ns p := by
  induction ns generalizing p with
  | nil => rfl
  | cons n ns ih =>
    simp only [readSets, readSetsInto, initHashSetInto_eq _ left, ih]
    rcases initHashSetInto deserializeDomain left p n with ⟨ok, s⟩ | u
    · cases ok
      · rfl
      · simp only [Res.map_ok, Res.bind_ok, ↓reduceIte]
        rcases readSetsInto left ns (p.drop n) with ⟨ok, ss⟩ | u
        · cases ok <;> rfl
        · rfl
    · rfl

/-- The two models of `deserialize` agree: `Client.deserialize` gives the client if true is returned, and nothing
otherwise. -/
theorem C80_agrees (left : Leftover) (c : Client E) (buffer : Ptr) :
    c.deserialize buffer = (fun r => if r.1 then some r.2 else none) <$> c.deserializeInto left buffer := by
  unfold Client.deserialize Client.deserializeInto
  dsimp only
  rcases cstrAt buffer with sz | u
  case ub => rfl
  simp only [Res.bind_ok]
  rcases headerNats (scanXs (List.replicate 20 0) sz) with v | u
  case ub => rfl
  simp only [Res.bind_ok]
  rcases readLists (v.take 10) (buffer.drop (sz.length + 1)) with ⟨lists, p⟩ | u
  case ub => rfl
  simp only [Res.bind_ok]
  rcases initBloomFilter E p (v.getD 12 0) with bloom | u
  case ub => rfl
  simp only [Res.bind_ok]
  rcases initBloomFilter E (p.drop (v.getD 12 0)) (v.getD 13 0) with exceptionBloom | u
  case ub => rfl
  simp only [Res.bind_ok, initHashSetInto_eq _ left.filters]
  rcases initHashSetInto Filter.deserialize left.filters ((p.drop (v.getD 12 0)).drop (v.getD 13 0)) (v.getD 14 0) with ⟨ok, s⟩ | u
  case ub => rfl
  cases ok
  · rfl
  simp only [Res.bind_ok, Res.map_ok, ↓reduceIte]
  rcases initHashSetInto Filter.deserialize left.filters (((p.drop (v.getD 12 0)).drop (v.getD 13 0)).drop (v.getD 14 0)) (v.getD 15 0) with ⟨ok, s'⟩ | u
  case ub => rfl
  cases ok
  · rfl
  simp only [Res.bind_ok, Res.map_ok, ↓reduceIte, readSetsInto_eq left.domains]
  rcases readSetsInto left.domains (v.drop 16) ((((p.drop (v.getD 12 0)).drop (v.getD 13 0)).drop (v.getD 14 0)).drop (v.getD 15 0)) with ⟨ok, sets⟩ | u
  case ub => rfl
  cases ok <;> rfl

/-- **C80**: nothing of what the client held before has any influence on what it holds afterwards, or on whether the data
are accepted; this also if they are refused.  Only the tags stay. -/
theorem C80_nothing_old (left : Leftover) {c c' : Client E} (h : c.tags = c'.tags) (buffer : Ptr) :
    c.deserializeInto left buffer = c'.deserializeInto left buffer := by
  unfold Client.deserializeInto Client.clear
  simp only [h]

/-- C80: the tags stay as they are, whether the data are accepted or not. -/
theorem C80_tags {left : Leftover} {c : Client E} {buffer : Ptr} {b : Bool} {d : Client E}
    (h : c.deserializeInto left buffer = .ok (b, d)) : d.tags = c.tags ∧ d.deserializedBuffer = some buffer := by
  unfold Client.deserializeInto at h
  dsimp only at h
  obtain ⟨sz, _, h⟩ := Res.bind_eq_ok.1 h
  obtain ⟨v, _, h⟩ := Res.bind_eq_ok.1 h
  obtain ⟨⟨lists, p⟩, _, h⟩ := Res.bind_eq_ok.1 h
  obtain ⟨bloom, _, h⟩ := Res.bind_eq_ok.1 h
  obtain ⟨exceptionBloom, _, h⟩ := Res.bind_eq_ok.1 h
  obtain ⟨⟨ok, s⟩, _, h⟩ := Res.bind_eq_ok.1 h
  cases ok
  · cases h; exact ⟨rfl, rfl⟩
  simp only [↓reduceIte] at h
  obtain ⟨⟨ok, s'⟩, _, h⟩ := Res.bind_eq_ok.1 h
  cases ok
  · cases h; exact ⟨rfl, rfl⟩
  simp only [↓reduceIte] at h
  obtain ⟨⟨ok, sets⟩, _, h⟩ := Res.bind_eq_ok.1 h
  cases h; exact ⟨rfl, rfl⟩

theorem loadStep_withBuffer (c : Client E) (buf : Option Bytes) (op : LoadOp) :
    loadStep (c.withBuffer buf) op = loadStep c op ∨
    loadStep (c.withBuffer buf) op = (fun (a, d) => (a, d.withBuffer buf)) <$> loadStep c op := by
  cases op with
  | op o => exact .inr (step_withBuffer c buf o)
  | load left buffer =>
    refine .inl ?_
    simp only [loadStep]
    rw [C80_nothing_old left (c := c.withBuffer buf) (c' := c) rfl]

theorem loadRun_withBuffer (c : Client E) (buf : Option Bytes) (ops : List LoadOp) :
    Prod.fst <$> loadRun (c.withBuffer buf) ops = Prod.fst <$> loadRun c ops := by
  induction ops generalizing c with
  | nil => rfl
  | cons op ops ih =>
    simp only [loadRun]
    rcases loadStep_withBuffer c buf op with h | h
    · rw [h]
    · rw [h]
      rcases loadStep c op with ⟨a, d⟩ | u
      · have e := ih d
        simp only [Res.map_ok, Res.bind_ok]
        revert e
        rcases loadRun (d.withBuffer buf) ops with ⟨as, x⟩ | u <;> rcases loadRun d ops with ⟨as', x'⟩ | u' <;> intro e <;> cases e <;> rfl
      · rfl

theorem loadRun_nodup {c c' : Client E} {ops : List LoadOp} {as : List Answer} (hn : c.tags.Nodup)
    (h : loadRun c ops = .ok (as, c')) : c'.tags.Nodup := by
  induction ops generalizing c as with
  | nil => cases h; exact hn
  | cons op ops ih =>
    obtain ⟨⟨a, c1⟩, h1, h⟩ := Res.bind_eq_ok.1 h
    obtain ⟨⟨as', c2⟩, h2, h⟩ := Res.bind_eq_ok.1 h
    cases h
    refine ih ?_ h2
    cases op with
    | op o =>
      have h3 : run c [o] = .ok ([a], c1) := by
        change step c o >>= _ = _
        rw [show step c o = .ok (a, c1) from h1]
        rfl
      exact (run_tags hn h3 []).1
    | load left buffer =>
      obtain ⟨⟨b, d⟩, h3, h4⟩ := Res.map_eq_ok.1 h1
      cases h4
      rw [(C80_tags h3).1]
      exact hn

/-- **C80**: in a session in which data are loaded, some accepted and some refused, and all kinds of other calls are made,
everything before a call of `clear`, or before loading data, may be left out: all later answers are the same as those of a
new client with the same tags.  So data that were refused leave no traces then. -/
theorem C80_recovers {before : List LoadOp} {as : List Answer} {c : Client E} (h : loadRun (Client.fresh E) before = .ok (as, c))
    (after : List LoadOp) :
    Prod.fst <$> loadRun c.clear after = Prod.fst <$> loadRun (Client.newWithTags E c.tags) after ∧
    ∀ left buffer, loadRun c (.load left buffer :: after) = loadRun (Client.newWithTags E c.tags) (.load left buffer :: after) := by
  have hn := loadRun_nodup (c := Client.fresh E) (by simp [Client.fresh]) h
  have ht : Client.newWithTags E c.tags = { Client.fresh E with tags := c.tags } := by
    rw [Client.newWithTags, foldl_addTag _ _ (by simpa [Client.fresh] using hn)]
    rfl
  constructor
  · have e : c.clear = (Client.newWithTags E c.tags).withBuffer c.deserializedBuffer := by
      rw [ht]
      rfl
    rw [e, loadRun_withBuffer]
  · intro left buffer
    simp only [loadRun, loadStep]
    rw [C80_nothing_old left (c := c) (c' := Client.newWithTags E c.tags) (by rw [ht])]

/-- If there is no set of exceptions for hosts, `matches` blocks nothing. -/
theorem query_no_exceptions {c : Client E} (h : c.hostExceptionSet = none) {url : Bytes} {co : Mask} {dom : Option Bytes}
    {o : Outcome E} (hq : c.query url co dom = .ok o) : o.block = false := by
  unfold Client.query at hq
  obtain ⟨b, _, hq⟩ := Res.bind_eq_ok.1 hq
  cases b
  · cases hq; rfl
  simp only [Bool.not_true, Bool.false_eq_true, ↓reduceIte] at hq
  obtain ⟨r, hr, hq⟩ := Res.bind_eq_ok.1 hq
  cases r with
  | done o' =>
    cases hq
    unfold Client.blockPhase at hr
    obtain ⟨x, _, hr⟩ := Res.bind_eq_ok.1 hr
    cases x with
    | some f => cases hr
    | none =>
      obtain ⟨r, _, hr⟩ := Res.bind_eq_ok.1 hr
      split at hr
      · cases hr; rfl
      · split at hr
        · cases hr
        · obtain ⟨x, _, hr⟩ := Res.bind_eq_ok.1 hr
          cases x with
          | some f => cases hr
          | none =>
            simp only at hr
            split at hr
            · cases hr; rfl
            · obtain ⟨x, _, hr⟩ := Res.bind_eq_ok.1 hr
              cases hr; rfl
  | hit f =>
    simp only [Client.exceptionPhase] at hq
    obtain ⟨x, _, hq⟩ := Res.bind_eq_ok.1 hq
    cases x with
    | some f => cases hq; rfl
    | none =>
      simp only [h, isHostAnchoredHashSetMiss, Res.pure_eq, Res.bind_ok, Bool.and_false, Bool.false_eq_true, Bool.not_false, ↓reduceIte] at hq
      cases hq
      rfl

/-- The part of C80 that holds: if the refused set is the first one, that of the blocking rules for hosts, or if the data have
no set of exceptions for hosts (in both cases that pointer stays null), then `matches` says "no" to every request. -/
theorem C80_blocks_nothing_partial {left : Leftover} {c d : Client E} {buffer : Ptr}
    (_ : c.deserializeInto left buffer = .ok (false, d)) (h : d.hostExceptionSet = none) {url : Bytes} {co : Mask} {dom : Option Bytes}
    {o : Outcome E} (hq : d.query url co dom = .ok o) : o.block = false := query_no_exceptions h hq

/-! ### what stays in force -/

/-- The data of a client with the rules `|http:`, `||b.com^` and `@@||a.com^`, with the lengths of the texts of the last two
rules, which are 6 in fact; to keep it short there are no bloom filters and no sets of domains, and the sets of hosts have one
bucket. -/
def refusedData (blocking exception : Bytes) : Bytes :=
  bs%"0,0,0,0,1,0,0,0,0,0,1,1,0,0,1a,1a,0,0,0,0" ++ [0] ++
  bs%"10,0,0" ++ [0] ++ bs%"http:" ++ [0, 0, 0] ++
  bs%"1" ++ [0] ++ blocking ++ bs%",208,0,0" ++ [0] ++ bs%"b.com^b.com" ++ [0, 0, 0] ++
  bs%"1" ++ [0] ++ exception ++ bs%",288,0,0" ++ [0] ++ bs%"a.com^a.com" ++ [0, 0, 0]

/-- A hash set with one bucket, without any entry. -/
def noEntries : HSet Filter := ⟨1, fun _ => []⟩

/-- the rules, as they are read from the data -/
def refusedRule (buffer : Bytes) : Filter := { borrowed := true, filterType := 0x10, data := some (buffer.drop 49) }

def blockingHost (buffer : Bytes) : Filter :=
  { borrowed := true, filterType := 0x208, data := some (buffer.drop 69), dataLen := some 6, host := some bs%"b.com" }

def exceptedHost (buffer : Bytes) : Filter :=
  { borrowed := true, filterType := 0x288, data := some (buffer.drop 95), dataLen := some 6, host := some bs%"a.com" }

/-- The client afterwards. -/
def refusedClient (c : Client E) (buffer : Bytes) (hostSet hostExceptionSet : Option (HSet Filter)) : Client E :=
  { lists := fun id => if id = .noFp then [refusedRule buffer] else [], numHostAnchoredFilters := 1,
    numHostAnchoredExceptionFilters := 1, hostSet := hostSet, hostExceptionSet := hostExceptionSet,
    tags := c.tags, deserializedBuffer := some buffer }

/-- the parts of the data that are read in all cases -/
theorem refused_header {b e : Bytes} (hb : b = bs%"6" ∨ b = bs%"f") (he : e = bs%"6" ∨ e = bs%"f") :
    cstrAt (refusedData b e) = .ok bs%"0,0,0,0,1,0,0,0,0,0,1,1,0,0,1a,1a,0,0,0,0" ∧
    headerNats (scanXs (List.replicate 20 0) bs%"0,0,0,0,1,0,0,0,0,0,1,1,0,0,1a,1a,0,0,0,0") =
      .ok [0, 0, 0, 0, 1, 0, 0, 0, 0, 0, 1, 1, 0, 0, 26, 26, 0, 0, 0, 0] ∧
    readLists [0, 0, 0, 0, 1, 0, 0, 0, 0, 0] ((refusedData b e).drop 42) =
      .ok ([[], [], [], [], [refusedRule (refusedData b e)], [], [], [], [], []], (refusedData b e).drop 57) ∧
    strncmpPtrEq ((refusedData b e).drop 49) (cstr bs%"http://a.com/") 5 = .ok true ∧
    strlen ((refusedData b e).drop 49) = .ok 5 := by
  rcases hb with rfl | rfl <;> rcases he with rfl | rfl <;> decide +kernel

theorem refused_sets :
    (∀ b e, b = bs%"6" ∧ e = bs%"6" ∨ b = bs%"6" ∧ e = bs%"f" → (∃ s, HSet.deserialize Filter.deserialize ((refusedData b e).drop 57) 26 = .ok (some s) ∧ s.count = 1 ∧
      s.bucket 0 = [blockingHost (refusedData b e)])) ∧
    (∃ s, HSet.deserialize Filter.deserialize ((refusedData bs%"6" bs%"6").drop 83) 26 = .ok (some s) ∧ s.count = 1 ∧
      s.bucket 0 = [exceptedHost (refusedData bs%"6" bs%"6")]) ∧
    HSet.deserialize Filter.deserialize ((refusedData bs%"f" bs%"6").drop 57) 26 = .ok none ∧
    HSet.deserialize Filter.deserialize ((refusedData bs%"6" bs%"f").drop 83) 26 = .ok none := by
  refine ⟨?_, ⟨_, rfl, rfl, ?_⟩, ?_, ?_⟩
  · rintro b e (⟨rfl, rfl⟩ | ⟨rfl, rfl⟩)
    · exact ⟨_, rfl, rfl, by decide +kernel⟩
    · exact ⟨_, rfl, rfl, by decide +kernel⟩
  · decide +kernel
  · rfl
  · rfl

/-- what is left to do after the arrays -/
theorem refused_arrays (left : Leftover) (c : Client E) {b e : Bytes} (hb : b = bs%"6" ∨ b = bs%"f") (he : e = bs%"6" ∨ e = bs%"f") :
    c.deserializeInto left (refusedData b e) =
      (do
        let (ok, hostSet) ← initHashSetInto Filter.deserialize left.filters ((refusedData b e).drop 57) 26
        if ok then do
          let (ok, hostExceptionSet) ← initHashSetInto Filter.deserialize left.filters ((refusedData b e).drop 83) 26
          pure (ok, refusedClient c (refusedData b e) hostSet hostExceptionSet)
        else pure (false, refusedClient c (refusedData b e) hostSet none)) := by
  obtain ⟨h1, h2, h3, _⟩ := refused_header hb he
  generalize refusedData b e = B at h1 h3 ⊢
  have hl : (fun id : ListId => [[], [], [], [], [refusedRule B], [], [], [], [], []].getD id.index []) =
      fun id => if id = .noFp then [refusedRule B] else [] := by
    funext id
    cases id <;> rfl
  unfold Client.deserializeInto
  simp only [h1, Res.bind_ok, h2]
  rw [show List.take 10 [0, 0, 0, 0, 1, 0, 0, 0, 0, 0, 1, 1, 0, 0, 26, 26, 0, 0, 0, 0] = [0, 0, 0, 0, 1, 0, 0, 0, 0, 0] from rfl,
    show List.drop (bs%"0,0,0,0,1,0,0,0,0,0,1,1,0,0,1a,1a,0,0,0,0".length + 1) B = B.drop 42 from rfl, h3]
  simp only [Res.bind_ok]
  rw [hl]
  have hd : (fun d : DomId => ([none, none, none, none] : List (Option (HSet Bytes))).getD d.index none) = fun _ => none := by
    funext d
    cases d <;> rfl
  have h0 : ∀ p, initHashSetInto deserializeDomain left.domains p 0 = .ok (true, none) := fun _ => rfl
  simp only [List.getD_cons_succ, List.getD_cons_zero, initBloomFilter, ↓reduceIte, Res.pure_eq, Res.bind_ok, List.drop_zero, List.drop_drop,
    List.drop_succ_cons, readSetsInto, h0, Nat.reduceAdd]
  generalize initHashSetInto Filter.deserialize left.filters (List.drop 57 B) 26 = x
  generalize initHashSetInto Filter.deserialize left.filters (List.drop 83 B) 26 = y
  rcases x with ⟨ok, s⟩ | u
  · cases ok
    · rfl
    · rcases y with ⟨ok, s⟩ | u
      · cases ok
        · rfl
        · simp only [Res.bind_ok, ↓reduceIte, hd]
          rfl
      · rfl
  · rfl

/-- `|http:` blocks the request, and it is left to the exceptions for hosts whether it is blocked -/
theorem refused_query (c : Client E) (dom : Option Bytes) {b e : Bytes} (hb : b = bs%"6" ∨ b = bs%"f") (he : e = bs%"6" ∨ e = bs%"f")
    (hs hes : Option (HSet Filter)) {r : SetRes}
    (hr : isHostAnchoredHashSetMiss E c.tags (Client.callMatchNoBloom bs%"http://a.com/" (resolveContext bs%"http://a.com/" 0 dom) dom) hes bs%"a.com" = .ok r) :
    (∃ o, (refusedClient c (refusedData b e) hs hes).query bs%"http://a.com/" 0 dom = .ok o ∧ o.block = r.miss) ∧
    (∃ o, (refusedClient c (refusedData b e) hs hes).findMatchingFilters bs%"http://a.com/" 0 dom = .ok o ∧ o.block = r.found.isNone) := by
  obtain ⟨_, _, _, h4, h5⟩ := refused_header hb he
  generalize refusedData b e = B at h4 h5 ⊢
  have hco : ∀ co : Mask, co = 0 ∨ co = FOThirdParty ∨ co = FONotThirdParty → (refusedRule B).matchesOptions co dom = true := by
    rintro co (rfl | rfl | rfl) <;>
      simp [Filter.matchesOptions, refusedRule, Filter.domainCheckFails, Filter.hasUnsupportedOptions, has] <;> decide +kernel
  have hm : ∀ bloom, (refusedRule B).matches bs%"http://a.com/" (resolveContext bs%"http://a.com/" 0 dom) dom bloom = .ok true := by
    intro bloom
    have h6 : (refusedRule B).matchesOptions (resolveContext bs%"http://a.com/" 0 dom) dom = true := by
      refine hco _ ?_
      cases dom with
      | none => exact .inl rfl
      | some d =>
        simp only [resolveContext]
        rw [if_neg (by decide)]
        split
        · exact .inr (.inl (by decide))
        · exact .inr (.inr (by decide))
    have h7 : has (0x10 : Mask) FTRegex = false ∧ has (0x10 : Mask) FTRightAnchored = false ∧ has (0x10 : Mask) FTLeftAnchored = true := by decide
    unfold Filter.matches
    rw [h6]
    simp only [refusedRule, Bool.not_true, Bool.false_eq_true, ↓reduceIte, h5, Res.bind_ok, Filter.matchesPattern, h7, Bool.and_false]
    exact h4
  have hh : getUrlHost bs%"http://a.com/" = bs%"a.com" := by decide +kernel
  have hp : isBlockableProtocol (cstr bs%"http://a.com/") bs%"http://a.com/".length = .ok true := by decide +kernel
  have hn : ∀ m : Filter → Res Bool, m (refusedRule B) = .ok true → hasMatchingFilters c.tags m [refusedRule B] = .ok (some (refusedRule B)) := by
    intro m hm
    simp only [hasMatchingFilters, hm, Res.bind_ok]
    rfl
  constructor
  · have hb : (refusedClient c B hs hes).blockPhase bs%"http://a.com/" (resolveContext bs%"http://a.com/" 0 dom) dom = .ok (.hit (some (refusedRule B))) := by
      have : (refusedClient c B hs hes).noFpPhase .domain .antiDomain .noFpDomain .noFpAntiDomain .noFp bs%"http://a.com/" (resolveContext bs%"http://a.com/" 0 dom) dom = .ok (some (refusedRule B)) := by
        simp only [Client.noFpPhase]
        exact hn _ (hm _)
      simp only [Client.blockPhase, this, Res.bind_ok]
      rfl
    have he : (refusedClient c B hs hes).noFpPhase .domainException .antiDomainException .noFpDomainException
      .noFpAntiDomainException .noFpException bs%"http://a.com/" (resolveContext bs%"http://a.com/" 0 dom) dom = .ok none := rfl
    unfold Client.query
    have hr' : isHostAnchoredHashSetMiss E (refusedClient c B hs hes).tags (Client.callMatchNoBloom bs%"http://a.com/" (resolveContext bs%"http://a.com/" 0 dom) dom)
      (refusedClient c B hs hes).hostExceptionSet bs%"a.com" = .ok r := hr
    rw [hp]
    simp only [Res.bind_ok, Bool.not_true, Bool.false_eq_true, ↓reduceIte, hb, Client.exceptionPhase, he, hh, hr']
    cases hmiss : r.miss
    · exact ⟨_, rfl, rfl⟩
    · exact ⟨_, rfl, rfl⟩
  · have hr' : isHostAnchoredHashSetMiss E (refusedClient c B hs hes).tags (Client.callMatchNoBloom bs%"http://a.com/" (resolveContext bs%"http://a.com/" 0 dom) dom)
      (refusedClient c B hs hes).hostExceptionSet bs%"a.com" = .ok r := hr
    unfold Client.findMatchingFilters
    have h1 : firstInLists (refusedClient c B hs hes).tags (Client.callMatchNoBloom bs%"http://a.com/" (resolveContext bs%"http://a.com/" 0 dom) dom)
        [(refusedClient c B hs hes).lists .noFp, (refusedClient c B hs hes).lists .noFpDomain, (refusedClient c B hs hes).lists .noFpAntiDomain,
          (refusedClient c B hs hes).lists .filters] = .ok (some (refusedRule B)) := by
      simp only [firstInLists, refusedClient, ↓reduceIte]
      rw [hn _ (hm _)]
      rfl
    have h2 : firstInLists (refusedClient c B hs hes).tags (Client.callMatchNoBloom bs%"http://a.com/" (resolveContext bs%"http://a.com/" 0 dom) dom)
        [(refusedClient c B hs hes).lists .noFpException, (refusedClient c B hs hes).lists .noFpDomainException,
          (refusedClient c B hs hes).lists .noFpAntiDomainException] = .ok none := rfl
    simp only [h1, h2, Res.bind_ok, hh, hr', Res.pure_eq, Res.map_ok]
    cases hf : r.found
    · exact ⟨_, rfl, rfl⟩
    · exact ⟨_, rfl, rfl⟩

/-- The undamaged data are accepted, and because of `@@||a.com^` the request is not blocked. -/
theorem C80_undamaged (left : Leftover) (c : Client E) {dom : Option Bytes} (hd : dom = none ∨ dom = some bs%"b.com") : ∃ d o r, c.deserializeInto left (refusedData bs%"6" bs%"6") = .ok (true, d) ∧
    d.query bs%"http://a.com/" 0 dom = .ok o ∧ o.block = false ∧
    d.findMatchingFilters bs%"http://a.com/" 0 dom = .ok r ∧ r.block = false := by
  obtain ⟨h1, ⟨s', h2, hc, hb⟩, _⟩ := refused_sets
  obtain ⟨s, h1, _⟩ := h1 _ _ (.inl ⟨rfl, rfl⟩)
  have hr : isHostAnchoredHashSetMiss E c.tags (Client.callMatchNoBloom bs%"http://a.com/" (resolveContext bs%"http://a.com/" 0 dom) dom) (some s') bs%"a.com" =
      .ok ⟨false, some (exceptedHost (refusedData bs%"6" bs%"6"))⟩ := by
    have hl : hostLookups bs%"a.com" = [bs%"a.com"] := by decide +kernel
    have hm : (exceptedHost (refusedData bs%"6" bs%"6")).matches bs%"http://a.com/" (resolveContext bs%"http://a.com/" 0 dom) dom none = .ok true := by
      rcases hd with rfl | rfl <;> decide +kernel
    simp only [isHostAnchoredHashSetMiss, hl, hostSetLookup, HSet.find, hc, Nat.mod_one, hb]
    rw [show List.find? (fun f => Option.getD f.host [] == bs%"a.com") [exceptedHost (refusedData bs%"6" bs%"6")] =
      some (exceptedHost (refusedData bs%"6" bs%"6")) from by decide +kernel]
    simp only [Client.callMatchNoBloom, hm, Res.bind_ok]
    rfl
  obtain ⟨⟨o, ho, hob⟩, ⟨r, hr, hrb⟩⟩ := refused_query c dom (.inl rfl) (.inl rfl) (some s) (some s') hr
  refine ⟨_, o, r, ?_, ho, hob, hr, hrb⟩
  rw [refused_arrays left c (.inl rfl) (.inl rfl)]
  simp only [initHashSetInto, Nat.reduceEqDiff, ↓reduceIte, h1, h2, Res.bind_ok, Res.pure_eq]

/-- C80 is violated for `matches`: if one byte of the set of exceptions for hosts is changed, the data are refused, but the
blocking rules among them are in force, and the exception is not.  (No entry was read from that set.) -/
theorem C80_matches_counterexample (doms : HSet Bytes) (c : Client E) (dom : Option Bytes) :
    ∃ d o, c.deserializeInto ⟨noEntries, doms⟩ (refusedData bs%"6" bs%"f") = .ok (false, d) ∧
      d.query bs%"http://a.com/" 0 dom = .ok o ∧ o.block = true := by
  obtain ⟨h1, _, _, h2⟩ := refused_sets
  obtain ⟨s, h1, _⟩ := h1 _ _ (.inr ⟨rfl, rfl⟩)
  have hr : isHostAnchoredHashSetMiss E c.tags (Client.callMatchNoBloom bs%"http://a.com/" (resolveContext bs%"http://a.com/" 0 dom) dom) (some noEntries) bs%"a.com" =
      .ok ⟨true, none⟩ := rfl
  obtain ⟨⟨o, ho, hob⟩, _⟩ := refused_query c dom (.inl rfl) (.inr rfl) (some s) (some noEntries) hr
  refine ⟨_, o, ?_, ho, hob⟩
  rw [refused_arrays _ c (.inl rfl) (.inr rfl)]
  simp only [initHashSetInto, Nat.reduceEqDiff, ↓reduceIte, h1, h2, Res.bind_ok, Res.pure_eq]

/-- C80 is violated for `findMatchingFilters`: if one byte of the set of blocking rules for hosts is changed, the data are
refused, and `matches` says "no" to every request, but `findMatchingFilters` says "yes" where the undamaged data have an
exception.  This is so whatever was read from that set. -/
theorem C80_find_counterexample (left : Leftover) (c : Client E) :
    ∃ d r, c.deserializeInto left (refusedData bs%"f" bs%"6") = .ok (false, d) ∧
      (∀ url co dom o, d.query url co dom = .ok o → o.block = false) ∧
      d.findMatchingFilters bs%"http://a.com/" 0 none = .ok r ∧ r.block = true := by
  obtain ⟨_, _, h1, _⟩ := refused_sets
  have hr : isHostAnchoredHashSetMiss E c.tags (Client.callMatchNoBloom bs%"http://a.com/" 0 none) none bs%"a.com" =
      .ok ⟨false, none⟩ := rfl
  obtain ⟨_, ⟨r, hr, hrb⟩⟩ := refused_query c none (.inr rfl) (.inl rfl) (some left.filters) none hr
  have e : c.deserializeInto left (refusedData bs%"f" bs%"6") =
      .ok (false, refusedClient c (refusedData bs%"f" bs%"6") (some left.filters) none) := by
    rw [refused_arrays _ c (.inr rfl) (.inl rfl)]
    simp only [initHashSetInto, Nat.reduceEqDiff, ↓reduceIte, h1, Res.bind_ok, Res.pure_eq, Bool.false_eq_true]
  exact ⟨_, r, e, fun url co dom o ho => C80_blocks_nothing_partial e rfl ho, hr, hrb⟩

/-- C80: a client made from a data file is the one of the other model, unless the data are refused. -/
theorem C80_dat_file_agrees (left : Leftover) (readFile : Bytes → Option Bytes) (path : Bytes) {d : Client E}
    (h : makeClientFromDATFile E readFile path = some (.ok (some d))) : makeClientFromDATFileInto E left readFile path = some (.ok d) := by
  unfold makeClientFromDATFile makeClientFromData at h
  unfold makeClientFromDATFileInto
  cases hr : readFile path with
  | none => rw [hr] at h; cases h
  | some data =>
    rw [hr, Option.map_some, Option.some.injEq, C80_agrees left] at h
    rw [Option.map_some]
    rcases hd : (Client.fresh E).deserializeInto left data with ⟨b, c⟩ | u
    · rw [hd] at h
      cases b
      · cases h
      · cases h; rfl
    · rw [hd] at h; cases h

/-- C80: no client is made exactly if the file cannot be read. -/
theorem C80_dat_file_unreadable (left : Leftover) (readFile : Bytes → Option Bytes) (path : Bytes) :
    makeClientFromDATFileInto E left readFile path = none ↔ readFile path = none := by
  unfold makeClientFromDATFileInto
  rw [Option.map_eq_none_iff]

/-- C80 is violated for data files, too: the promise of `makeAdBlockClientFromDATFile` is fulfilled although the file is damaged, with
a client that blocks what the client made from the undamaged file does not. -/
theorem C80_dat_file_counterexample (E : Env) (doms : HSet Bytes) (path : Bytes) :
    (∃ d o, makeClientFromDATFileInto E ⟨noEntries, doms⟩ (fun _ => some (refusedData bs%"6" bs%"6")) path = some (.ok d) ∧
      d.query bs%"http://a.com/" 0 none = .ok o ∧ o.block = false) ∧
    makeClientFromDATFile E (fun _ => some (refusedData bs%"6" bs%"f")) path = some (.ok none) ∧
    ∃ d o, makeClientFromDATFileInto E ⟨noEntries, doms⟩ (fun _ => some (refusedData bs%"6" bs%"f")) path = some (.ok d) ∧
      d.query bs%"http://a.com/" 0 none = .ok o ∧ o.block = true := by
  obtain ⟨d, o, -, h1, h2, h3, -⟩ := C80_undamaged ⟨noEntries, doms⟩ (Client.fresh E) (.inl rfl)
  obtain ⟨d', o', h4, h5, h6⟩ := C80_matches_counterexample doms (Client.fresh E) none
  refine ⟨⟨d, o, ?_, h2, h3⟩, ?_, d', o', ?_, h5, h6⟩
  · unfold makeClientFromDATFileInto
    rw [Option.map_some, h1]; rfl
  · unfold makeClientFromDATFile makeClientFromData
    rw [Option.map_some, C80_agrees ⟨noEntries, doms⟩, h4]; rfl
  · unfold makeClientFromDATFileInto
    rw [Option.map_some, h4]; rfl

/-- A session in which a tag is enabled, data are refused and the rules are forgotten. -/
example : (fun r => r.1.map fun a => match a with | .done => none | .bool b => some b | .verdict b .. => some b) <$>
    loadRun (Client.fresh toyEnv) [.op (.addTag bs%"x"), .op (.matches bs%"http://a.com/" 0 none),
      .load ⟨noEntries, HSet.new 1⟩ (refusedData bs%"6" bs%"f"), .op (.matches bs%"http://a.com/" 0 none), .op .clear,
      .op (.matches bs%"http://a.com/" 0 none), .op (.tagExists bs%"x"),
      .load ⟨noEntries, HSet.new 1⟩ (refusedData bs%"6" bs%"6"), .op (.matches bs%"http://a.com/" 0 none),
      .op (.matches bs%"http://c.com/" 0 none)] =
    .ok [none, some false, some false, some true, none, some false, some true, some true, some false, some true] := by
  decide +kernel

end AdBlock
