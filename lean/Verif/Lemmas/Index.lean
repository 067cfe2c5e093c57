import Verif.Lemmas.Match
import Verif.Props.Parse
/-
The indexes of a client and the rules entered in them.
-/
namespace AdBlock
open Spec

/-! ### hash sets -/

/-- the hash set holds the first element of each key of `xs` -/
structure Keeps {T : Type} (s : HSet T) (key : T → Bytes) (H : Bytes → Nat) (xs : List T) : Prop where
  find : ∀ k, s.find (H k) (fun x => key x == k) = xs.find? (fun x => key x == k)
  sub : ∀ i, ∀ x ∈ s.bucket i, x ∈ xs

theorem Keeps.new {T : Type} (n : Nat) (key : T → Bytes) (H : Bytes → Nat) : Keeps (HSet.new n) key H [] :=
  ⟨fun _ => rfl, by simp [HSet.new]⟩

theorem Keeps.add {T : Type} {s : HSet T} {key : T → Bytes} {H : Bytes → Nat} {xs : List T} (h : Keeps s key H xs)
    {eq : T → T → Bool} {hash : T → Nat} (heq : ∀ a b, eq a b = (key a == key b)) {x : T} (hh : hash x = H (key x)) :
    Keeps (s.add eq hash x) key H (xs ++ [x]) := by
  constructor
  · intro k
    have hk := h.find k
    have hx := h.find (key x)
    unfold HSet.find at hk hx
    unfold HSet.find HSet.add
    simp only [hh, List.find?_append, ← hk]
    have hany : (s.bucket (H (key x) % s.count)).any (fun a => eq a x) = (xs.find? fun a => key a == key x).isSome := by
      rw [← hx, Bool.eq_iff_iff, List.find?_isSome]
      simp [List.any_eq_true, heq]
    by_cases hi : H k % s.count = H (key x) % s.count
    · rw [if_pos hi, hi, hany]
      by_cases hs : (xs.find? fun a => key a == key x).isSome = true
      · rw [if_pos hs]
        by_cases hkx : key x = k
        · subst hkx
          rw [← hx] at hs
          obtain ⟨y, hy⟩ := Option.isSome_iff_exists.1 hs
          rw [hy]; rfl
        · simp [hkx]
      · rw [if_neg hs, List.find?_append]
    · rw [if_neg hi]
      have : ¬ key x = k := fun e => hi (by rw [e])
      simp [this]
  · intro i y hy
    simp only [HSet.add] at hy
    have := h.sub i y
    split at hy
    · split at hy
      · exact List.mem_append_left _ (this hy)
      · rcases List.mem_append.1 hy with hy | hy
        · exact List.mem_append_left _ (this hy)
        · exact List.mem_append_right _ hy
    · exact List.mem_append_left _ (this hy)

/-! ### the names looked up for a host -/

theorem skipTld_spec (host : Bytes) (n : Nat) (hn : n ≤ host.length) :
    skipTld host n ≤ n ∧ (∀ i, skipTld host n ≤ i → i < n → i ≠ skipTld host n → host.getD i 0 ≠ ch%'.') ∧
      (skipTld host n = 0 ∨ host.getD (skipTld host n) 0 = ch%'.') := by
  induction n with
  | zero => simp [skipTld]
  | succ n ih =>
    unfold skipTld
    split
    · rename_i hc
      refine ⟨by omega, fun i h1 h2 h3 => by omega, .inr ?_⟩
      simpa using hc
    · rename_i hc
      obtain ⟨h1, h2, h3⟩ := ih (by omega)
      refine ⟨by omega, fun i hi1 hi2 hi3 => ?_, h3⟩
      by_cases h : i = n
      · subst h; simpa using hc
      · exact h2 i hi1 (by omega) hi3

theorem mem_lookupsFrom (host x : Bytes) (n : Nat) :
    x ∈ lookupsFrom host n ↔ x = host ∨ ∃ i, i < n ∧ host.getD i 0 = ch%'.' ∧ x = host.drop (i + 1) := by
  induction n with
  | zero => simp [lookupsFrom]
  | succ n ih =>
    unfold lookupsFrom
    split
    · rename_i hc
      have hc : host.getD n 0 = ch%'.' := by simpa using hc
      rw [List.mem_cons, ih]
      constructor
      · rintro (h | h | ⟨i, h1, h2, h3⟩)
        · exact .inr ⟨n, by omega, hc, h⟩
        · exact .inl h
        · exact .inr ⟨i, by omega, h2, h3⟩
      · rintro (h | ⟨i, h1, h2, h3⟩)
        · exact .inr (.inl h)
        · by_cases hi : i = n
          · subst hi; exact .inl h3
          · exact .inr (.inr ⟨i, by omega, h2, h3⟩)
    · rename_i hc
      have hc : ¬ host.getD n 0 = ch%'.' := by simpa using hc
      rw [ih]
      constructor
      · rintro (h | ⟨i, h1, h2, h3⟩)
        · exact .inl h
        · exact .inr ⟨i, by omega, h2, h3⟩
      · rintro (h | ⟨i, h1, h2, h3⟩)
        · exact .inl h
        · refine .inr ⟨i, ?_, h2, h3⟩
          by_cases hi : i = n
          · subst hi; exact absurd h2 hc
          · omega

/-- The names looked up: the host and the names behind its dots, but not its last label. -/
theorem mem_hostLookups (host x : Bytes) :
    x ∈ hostLookups host ↔ SameSite x host ∧ (x = host ∨ ch%'.' ∈ x) := by
  unfold hostLookups
  rw [mem_lookupsFrom]
  obtain ⟨h1, h2, h3⟩ := skipTld_spec host host.length (Nat.le_refl _)
  generalize skipTld host host.length = n at *
  constructor
  · rintro (rfl | ⟨i, hi, hd, rfl⟩)
    · exact ⟨.inl rfl, .inl rfl⟩
    · have hil : i < host.length := by omega
      refine ⟨.inr ⟨host.take i, ?_⟩, .inr ?_⟩
      · have : host[i] = ch%'.' := by simpa [List.getD_eq_getElem?_getD, hil] using hd
        rw [← this, ← List.drop_eq_getElem_cons, List.take_append_drop]
      · rcases h3 with h3 | h3
        · omega
        · have hnl : n < host.length := by
            rcases Nat.lt_or_ge n host.length with h | h
            · exact h
            · rw [List.getD_eq_getElem?_getD, List.getElem?_eq_none h] at h3; exact absurd h3 (by decide)
          have he : host[n] = ch%'.' := by simpa [List.getD_eq_getElem?_getD, hnl] using h3
          rw [List.mem_iff_getElem]
          exact ⟨n - (i + 1), by simp; omega, by simp only [List.getElem_drop]; rw [← he]; congr 1; omega⟩
  · rintro ⟨hs, hx⟩
    rcases hs with rfl | ⟨sub, rfl⟩
    · exact .inl rfl
    · refine .inr ⟨sub.length, ?_, by simp [List.getD_eq_getElem?_getD], by simp⟩
      rcases hx with hx | hx
      · have := congrArg List.length hx
        simp at this
        omega
      · obtain ⟨j, hj, hjx⟩ := List.mem_iff_getElem.1 hx
        apply Decidable.byContradiction
        intro hn
        refine h2 (sub.length + 1 + j) (by omega) (by simp; omega) (by omega) ?_
        rw [List.getD_eq_getElem?_getD, List.getElem?_append_right (by omega)]
        have : sub.length + 1 + j - sub.length = j + 1 := by omega
        rw [this, List.getElem?_cons_succ, List.getElem?_eq_getElem hj]
        exact hjx

/-! ### classes of rules -/

/-- the lists of the two kinds of rules -/
def fpList (s : Bool) : ListId := if s then .exception else .filters
def plainList (s : Bool) : ListId := if s then .noFpException else .noFp
def domList (s : Bool) : ListId := if s then .noFpDomainException else .noFpDomain
def antiList (s : Bool) : ListId := if s then .noFpAntiDomainException else .noFpAntiDomain
def domSet (s : Bool) : DomId := if s then .domainException else .domain
def antiSet (s : Bool) : DomId := if s then .antiDomainException else .antiDomain
def hostClass (s : Bool) : Class := if s then .hostAnchoredException else .hostAnchored

theorem mask_and_bit (x m : Mask) (k : Nat) (hm : m = BitVec.twoPow 32 k) : x &&& m = if has x m then m else 0#32 := by
  subst hm
  unfold has
  rw [BitVec.and_twoPow]
  split <;> simp

theorem netBits_list {m : Mask} (h : NetBits m) : m &&& FTListTypesMask = if has m FTException then FTException else 0#32 := by
  have h1 : m = m &&& netMask := by
    have : m = m &&& (netMask ||| ~~~ netMask) := by
      rw [show netMask ||| ~~~ netMask = BitVec.allOnes 32 from by decide, BitVec.and_allOnes]
    rw [this, BitVec.and_or_distrib_left, show m &&& ~~~ netMask = 0#32 from h]
    simp [BitVec.and_assoc]
  have h2 : m &&& FTListTypesMask = m &&& FTException := by
    rw [h1, BitVec.and_assoc, BitVec.and_assoc]
    rfl
  rw [h2]
  exact mask_and_bit m FTException 7 (by decide)

theorem Parsed.kind_exception {f : Filter} (hp : Parsed f) {s : Bool} (hk : Kind s f) : has f.filterType FTException = s := by
  unfold Kind at hk
  rcases hp.kind with h | h | h | h | h | h | h
  · rw [netBits_list h] at hk
    cases hx : has f.filterType FTException <;> cases s <;> simp [hx] at hk ⊢ <;> exact absurd hk (by decide)
  all_goals (rw [h] at hk ⊢; cases s <;> first | rfl | exact absurd hk (by decide))

/-- what the class of a rule says about it -/
inductive ClassOf (bad : List Bytes) (f : Filter) : Class → Prop
  | unsupported : f.hasUnsupportedOptions = true → ClassOf bad f .drop
  | idle : f.filterType = FTEmpty ∨ f.filterType = FTComment → ClassOf bad f .drop
  | cosmetic : f.filterType = FTElementHiding ∨ f.filterType = FTElementHidingException → ClassOf bad f (.list .cosmetic)
  | html : f.filterType = FTHTMLFiltering → ClassOf bad f (.list .html)
  | host (s : Bool) : f.hasUnsupportedOptions = false → Kind s f → has f.filterType FTHostOnly = true →
      ClassOf bad f (hostClass s)
  | fp (s : Bool) (w : Bytes) : f.hasUnsupportedOptions = false → Kind s f → has f.filterType FTHostOnly = false →
      getFingerprint bad f = .ok (some w) → ClassOf bad f (.list (fpList s))
  | dom (s : Bool) : f.hasUnsupportedOptions = false → Kind s f → has f.filterType FTHostOnly = false →
      getFingerprint bad f = .ok none → f.isDomainOnlyFilter = true → ClassOf bad f (.list (domList s))
  | anti (s : Bool) : f.hasUnsupportedOptions = false → Kind s f → has f.filterType FTHostOnly = false →
      getFingerprint bad f = .ok none → f.isAntiDomainOnlyFilter = true → ClassOf bad f (.list (antiList s))
  | plain (s : Bool) : f.hasUnsupportedOptions = false → Kind s f → has f.filterType FTHostOnly = false →
      getFingerprint bad f = .ok none → f.isDomainOnlyFilter = false → f.isAntiDomainOnlyFilter = false →
      ClassOf bad f (.list (plainList s))

/-- the list of a rule which is not host-only -/
def netClass (s : Bool) (fp : Bool) (d a : Bool) : Class :=
  .list (if fp then fpList s else if d then domList s else if a then antiList s else plainList s)

theorem classify_kind (bad : List Bytes) {f : Filter} (hs : f.hasUnsupportedOptions = false) {s : Bool} (hk : Kind s f) :
    classify bad f = if has f.filterType FTHostOnly then .ok (hostClass s) else
      getFingerprint bad f >>= fun w => .ok (netClass s w.isSome f.isDomainOnlyFilter f.isAntiDomainOnlyFilter) := by
  unfold Kind at hk
  unfold classify
  rw [if_neg (by simp [hs])]
  cases s
  · simp only [Bool.false_eq_true, ↓reduceIte] at hk
    simp only [hk]
    rw [if_neg (by decide), if_neg (by decide), if_neg (by decide), if_neg (by decide), if_neg (by decide), if_neg (by decide)]
    split
    · rfl
    · cases getFingerprint bad f with
      | ub u => rfl
      | ok w =>
        simp only [Res.bind_ok, netClass]
        cases w.isSome <;> cases f.isDomainOnlyFilter <;> cases f.isAntiDomainOnlyFilter <;> rfl
  · simp only [↓reduceIte] at hk
    simp only [hk, ↓reduceIte]
    split
    · rfl
    · cases getFingerprint bad f with
      | ub u => rfl
      | ok w =>
        simp only [Res.bind_ok, netClass]
        cases w.isSome <;> cases f.isDomainOnlyFilter <;> cases f.isAntiDomainOnlyFilter <;> rfl

theorem classify_spec {bad : List Bytes} {f : Filter} (hp : Parsed f) {cl : Class} (h : classify bad f = .ok cl) :
    ClassOf bad f cl := by
  by_cases hs : f.hasUnsupportedOptions = true
  · have : cl = .drop := by
      unfold classify at h
      rw [if_pos hs] at h
      cases h; rfl
    subst this
    exact .unsupported hs
  have hs' : f.hasUnsupportedOptions = false := by simpa using hs
  have key : ∀ s, Kind s f → ClassOf bad f cl := by
    intro s hk
    rw [classify_kind bad hs' hk] at h
    split at h
    · rename_i hh
      cases h
      exact .host s hs' hk hh
    · rename_i hh
      obtain ⟨w, hw, h⟩ := Res.bind_eq_ok.1 h
      have hh : has f.filterType FTHostOnly = false := by simpa using hh
      cases h
      unfold netClass
      cases w with
      | some w => exact .fp s w hs' hk hh hw
      | none =>
        simp only [Option.isSome_none, Bool.false_eq_true, ↓reduceIte]
        split
        · exact .dom s hs' hk hh hw ‹_›
        · split
          · exact .anti s hs' hk hh hw ‹_›
          · rename_i h1 h2
            exact .plain s hs' hk hh hw (by simpa using h1) (by simpa using h2)
  rcases hp.kind with hn | hn | hn | hn | hn | hn | hn
  · have := netBits_list hn
    by_cases hx : has f.filterType FTException = true
    · exact key true (by unfold Kind; rw [this, if_pos hx]; rfl)
    · exact key false (by unfold Kind; rw [this, if_neg hx]; rfl)
  · have : cl = .list .cosmetic := by
      unfold classify at h; rw [if_neg hs, hn] at h; cases h; rfl
    subst this; exact .cosmetic (.inl hn)
  · have : cl = .list .cosmetic := by
      unfold classify at h; rw [if_neg hs, hn] at h; cases h; rfl
    subst this; exact .cosmetic (.inr hn)
  · have : cl = .list .html := by
      unfold classify at h; rw [if_neg hs, hn] at h; cases h; rfl
    subst this; exact .html hn
  · have := classify_idle (bad := bad) (.inr hn)
    rw [this] at h; cases h; exact .idle (.inr hn)
  · have := classify_idle (bad := bad) (.inl hn)
    rw [this] at h; cases h; exact .idle (.inl hn)
  · exact key false (by unfold Kind; rw [hn]; decide)

/-! ### the indexes of a list of rules -/

/-- the names in a domain list -/
def domEntries (dl : Bytes) : List Bytes :=
  (splitOn ch%'|' dl).filterMap fun s =>
    if s = [] then none else if s.head? = some ch%'~' then some (s.drop 1) else some s

def Filter.entries (f : Filter) : List Bytes := (f.domainList.map domEntries).getD []

theorem mem_domEntries {dl x : Bytes} :
    x ∈ domEntries dl ↔ (x ∈ positive dl ∧ x ≠ []) ∨ x ∈ negative dl := by
  unfold domEntries positive negative
  simp only [List.mem_filterMap, List.mem_filter, List.mem_map, decide_eq_true_eq]
  constructor
  · rintro ⟨s, hs, h⟩
    split at h
    · cases h
    · split at h
      · cases h; exact .inr ⟨s, ⟨hs, ‹_›⟩, rfl⟩
      · cases h; exact .inl ⟨⟨hs, ‹_›⟩, ‹_›⟩
  · rintro (⟨⟨hs, h1⟩, h2⟩ | ⟨s, ⟨hs, h1⟩, rfl⟩)
    · exact ⟨x, hs, by rw [if_neg h2, if_neg h1]⟩
    · refine ⟨s, hs, ?_⟩
      rw [if_neg (by rintro rfl; simp at h1), if_pos h1]

theorem addDomains_keeps (E : Env) {ds : List Bytes} {s s' : HSet Bytes} {xs : List Bytes} (hk : Keeps s id E.hash xs)
    (h : addDomains E ds s = .ok s') :
    Keeps s' id E.hash (xs ++ ds.filterMap fun s =>
      if s = [] then none else if s.head? = some ch%'~' then some (s.drop 1) else some s) := by
  induction ds generalizing s xs with
  | nil => cases h; simpa using hk
  | cons d ds ih =>
    unfold addDomains at h
    have heq : ∀ a b : Bytes, (a == b) = (id a == id b) := fun _ _ => rfl
    by_cases hd : d = []
    · subst hd
      rw [if_neg (by simp), if_neg (by simp)] at h
      simpa using ih hk h
    · have hl : d.length > 0 := List.length_pos_iff.2 hd
      by_cases hh : d.head? = some ch%'~'
      · rw [if_neg (by simp [hh]), if_pos hl] at h
        split at h
        · cases h
        · have := ih (hk.add (hash := E.hash) heq (x := d.drop 1) rfl) h
          simpa [hd, hh] using this
      · rw [if_pos ⟨hl, hh⟩] at h
        split at h
        · cases h
        · have := ih (hk.add (hash := E.hash) heq (x := d) rfl) h
          simpa [hd, hh] using this

def Build.bl {E} (b : Build E) (s : Bool) : E.fp.B := if s then b.exceptionBloom else b.bloom
def Build.hs {E} (b : Build E) (s : Bool) : HSet Filter := if s then b.hostExceptionSet else b.hostSet

/-- the rules copied to the hash sets -/
def Filter.entered (s : Bool) (f : Filter) : Bool :=
  f.data.isSome && has f.filterType FTHostOnly && has f.filterType FTException == s

def hostKey (f : Filter) : Bytes := f.host.getD []

/-- the rules whose domains are entered in a set -/
def Filter.domClass (bad : List Bytes) (d : DomId) (f : Filter) : Bool :=
  match classify bad f with
  | .ok (.list id) => id.domId == some d
  | _ => false

/-- `b` is the result of entering the rules `fs`. -/
structure Index (E : Env) (fs : List Filter) (b : Build E) : Prop where
  parsed : ∀ f ∈ fs, Parsed f
  classified : ∀ f ∈ fs, ∃ cl, classify E.bad f = .ok cl
  arr : ∀ id, b.arr id = fs.filter (fun f => classify E.bad f = .ok (.list id))
  bloom : ∀ s, ∀ f ∈ fs, classify E.bad f = .ok (.list (fpList s)) → f.data ≠ none →
    ∃ w, getFingerprint E.bad f = .ok (some w) ∧ E.fp.mem (b.bl s) w = true
  hosts : ∀ s, Keeps (b.hs s) hostKey E.hash ((fs.filter (Filter.entered s)).map Filter.bare)
  doms : ∀ d, Keeps (b.domSets d) id E.hash ((fs.filter (Filter.domClass E.bad d)).flatMap Filter.entries)

theorem Index.start (E : Env) : Index E [] (Client.fresh E).startBuild where
  parsed := by simp
  classified := by simp
  arr := fun id => rfl
  bloom := by simp
  hosts := fun s => by cases s <;> exact Keeps.new ..
  doms := fun d => Keeps.new ..

theorem addFilterDomains_keeps (E : Env) {f : Filter} {s s' : HSet Bytes} {xs : List Bytes} (hk : Keeps s id E.hash xs)
    (h : addFilterDomainsToHashSet E f s = .ok s') : Keeps s' id E.hash (xs ++ f.entries) := by
  unfold addFilterDomainsToHashSet at h
  unfold Filter.entries
  cases hd : f.domainList with
  | none => rw [hd] at h; cases h; simpa using hk
  | some dl =>
    rw [hd] at h
    simp only [domainSegments_eq] at h
    exact addDomains_keeps E hk h

theorem Parsed.hostOnly_kind {f : Filter} (hp : Parsed f) (h : has f.filterType FTHostOnly = true) : NetBits f.filterType := by
  rcases hp.kind with hn | hn | hn | hn | hn | hn | hn
  · exact hn
  all_goals (rw [hn] at h; exact absurd h (by decide))

theorem filterHash_host (E : Env) {f : Filter} (h : f.host.isSome = true) : filterHash E f = E.hash (hostKey f) := by
  obtain ⟨k, hk⟩ := Option.isSome_iff_exists.1 h
  simp [filterHash, hostKey, hk]

theorem fpList_inj {s s' : Bool} (h : (Class.list (fpList s)) = .list (fpList s')) : s = s' := by
  cases s <;> cases s' <;> first | rfl | cases h

theorem entered_false {f : Filter} (s : Bool) (h : f.data = none ∨ has f.filterType FTHostOnly = false) : f.entered s = false := by
  unfold Filter.entered
  rcases h with h | h <;> simp [h]

theorem apply_spec {E : Env} {b b1 : Build E} {f : Filter} {e : Effect} (hp : Parsed f) (he : EffectOf E.bad f e)
    (h : b.apply f e = .ok b1) :
    b1.arr = b.arr ∧ b1.domSets = b.domSets ∧
    (∀ s w, E.fp.mem (b.bl s) w = true → E.fp.mem (b1.bl s) w = true) ∧
    (∀ w, f.data ≠ none → has f.filterType FTHostOnly = false → getFingerprint E.bad f = .ok (some w) →
      f.filterType ≠ FTElementHiding → f.filterType ≠ FTElementHidingException →
      E.fp.mem (b1.bl (has f.filterType FTException)) w = true) ∧
    ∀ s xs, Keeps (b.hs s) hostKey E.hash xs →
      Keeps (b1.hs s) hostKey E.hash (xs ++ if f.entered s then [f.bare] else []) := by
  have skip : ∀ {b1 : Build E}, b1.hs = b.hs → (∀ s, f.entered s = false) → ∀ s xs, Keeps (b.hs s) hostKey E.hash xs →
      Keeps (b1.hs s) hostKey E.hash (xs ++ if f.entered s then [f.bare] else []) := by
    intro b1 hb hf s xs hk
    rw [hf s, hb]
    simpa using hk
  cases he with
  | noText hd =>
    cases h
    exact ⟨rfl, rfl, fun _ _ h => h, fun w hd' => absurd hd hd', skip rfl fun s => entered_false s (.inl hd)⟩
  | other ho =>
    cases h
    refine ⟨rfl, rfl, fun _ _ h => h, fun w _ _ hfp h2 h3 => ?_, skip rfl fun s => entered_false s (.inr ?_)⟩
    · rcases ho with ho | ho | ho
      · unfold getFingerprint at hfp
        rw [if_pos (by rw [ho]; decide)] at hfp
        cases hfp
      · exact absurd ho h2
      · exact absurd ho h3
    · rcases ho with ho | ho | ho <;> rw [ho] <;> decide
  | host hd hh =>
    have hcopy := copy_bare hp hd
    have hhost := hp.host (hp.hostOnly hh)
    have hent : ∀ s, f.entered s = (has f.filterType FTException == s) := by
      intro s
      unfold Filter.entered
      rw [hh, Option.isSome_iff_ne_none.2 hd]
      simp
    have hadd : ∀ {t : HSet Filter} {xs : List Filter}, Keeps t hostKey E.hash xs →
        Keeps (t.add filterEq (filterHash E) f.bare) hostKey E.hash (xs ++ [f.bare]) := by
      intro t xs hk
      exact hk.add (fun _ _ => rfl) (filterHash_host E (by simpa using hhost))
    by_cases hx : has f.filterType FTException = true
    · rw [if_pos hx] at h
      simp only [Build.apply, hcopy, Res.bind_ok] at h
      cases h
      refine ⟨rfl, rfl, fun s w h => h, fun w _ h' => absurd (hh.symm.trans h') (by simp), fun s xs hk => ?_⟩
      rw [hent, hx]
      cases s
      · simpa [Build.hs] using hk
      · exact hadd hk
    · rw [if_neg hx] at h
      simp only [Build.apply, hcopy, Res.bind_ok] at h
      cases h
      refine ⟨rfl, rfl, fun s w h => h, fun w _ h' => absurd (hh.symm.trans h') (by simp), fun s xs hk => ?_⟩
      have hx : has f.filterType FTException = false := by simpa using hx
      rw [hent, hx]
      cases s
      · exact hadd hk
      · simpa [Build.hs] using hk
  | noFp hd hh hfp =>
    cases h
    exact ⟨rfl, rfl, fun _ _ h => h, fun w _ _ h' => absurd (hfp.symm.trans h') (by simp), skip rfl fun s => entered_false s (.inr hh)⟩
  | fp w hd hh hfp =>
    by_cases hx : has f.filterType FTException = true
    · rw [if_pos hx] at h
      cases h
      refine ⟨rfl, rfl, fun s v hv => ?_, fun v _ _ hv _ _ => ?_, skip rfl fun s => entered_false s (.inr hh)⟩
      · cases s
        · exact hv
        · exact E.fp.mem_add _ _ _ hv
      · rw [hfp] at hv
        cases hv
        rw [hx]
        exact E.fp.mem_add_self _ _
    · rw [if_neg hx] at h
      cases h
      refine ⟨rfl, rfl, fun s v hv => ?_, fun v _ _ hv _ _ => ?_, skip rfl fun s => entered_false s (.inr hh)⟩
      · cases s
        · exact E.fp.mem_add _ _ _ hv
        · exact hv
      · rw [hfp] at hv
        cases hv
        rw [show has f.filterType FTException = false by simpa using hx]
        exact E.fp.mem_add_self _ _

theorem Index.enter {E : Env} {fs : List Filter} {b b' : Build E} (hi : Index E fs b) {f : Filter} {e : Effect}
    (hp : Parsed f) (he : EffectOf E.bad f e) (h : b.enter f e = .ok b') : Index E (fs ++ [f]) b' := by
  unfold Build.enter at h
  obtain ⟨b1, h1, h⟩ := Res.bind_eq_ok.1 h
  obtain ⟨cl, hcl, h⟩ := Res.bind_eq_ok.1 h
  obtain ⟨a1, a2, a3, a4, a5⟩ := apply_spec hp he h1
  obtain ⟨s1, s2, s3, s4, s5, s6⟩ := store_ok h
  have hbl : ∀ s, b'.bl s = b1.bl s := fun s => by cases s <;> simp [Build.bl, s2, s3]
  have hhs : ∀ s, b'.hs s = b1.hs s := fun s => by cases s <;> simp [Build.hs, s4, s5]
  refine ⟨?_, ?_, ?_, ?_, ?_, ?_⟩
  · intro g hg
    rcases List.mem_append.1 hg with hg | hg
    · exact hi.parsed g hg
    · cases List.mem_singleton.1 hg; exact hp
  · intro g hg
    rcases List.mem_append.1 hg with hg | hg
    · exact hi.classified g hg
    · cases List.mem_singleton.1 hg; exact ⟨cl, hcl⟩
  · intro id
    rw [s1 id, a1, hi.arr id, List.filter_append]
    by_cases hc : cl = .list id
    · rw [if_pos hc]; simp [hcl, hc]
    · rw [if_neg hc]; simp [hcl, hc]
  · intro s g hg hcg hd
    rw [hbl]
    rcases List.mem_append.1 hg with hg | hg
    · obtain ⟨w, hw, hm⟩ := hi.bloom s g hg hcg hd
      exact ⟨w, hw, a3 s w hm⟩
    · cases List.mem_singleton.1 hg
      have := classify_spec hp hcg
      generalize hc : (Class.list (fpList s)) = c at this
      cases this with
      | fp s' w hs hk hh hfp =>
        have hs' := fpList_inj hc
        subst hs'
        refine ⟨w, hfp, ?_⟩
        have := a4 w hd hh hfp (by rintro h; rw [Kind, h] at hk; cases s <;> exact absurd hk (by decide))
          (by rintro h; rw [Kind, h] at hk; cases s <;> exact absurd hk (by decide))
        rwa [hp.kind_exception hk] at this
      | unsupported => cases s <;> cases hc
      | idle => cases s <;> cases hc
      | cosmetic => cases s <;> cases hc
      | html => cases s <;> cases hc
      | host s' => cases s <;> cases s' <;> cases hc
      | dom s' => cases s <;> cases s' <;> cases hc
      | anti s' => cases s <;> cases s' <;> cases hc
      | plain s' => cases s <;> cases s' <;> cases hc
  · intro s
    rw [hhs, List.filter_append, List.map_append]
    have := a5 s _ (hi.hosts s)
    cases hf : f.entered s
    · simpa [hf] using this
    · simpa [hf] using this
  · intro d
    have hd := hi.doms d
    rw [List.filter_append, List.flatMap_append]
    rcases s6 d with ⟨id, h1, h2, h3⟩ | ⟨h1, h2⟩
    · have : Filter.domClass E.bad d f = true := by
        unfold Filter.domClass
        rw [hcl, h1]
        simp [h2]
      rw [a2] at h3
      simpa [this] using addFilterDomains_keeps E hd h3
    · have : Filter.domClass E.bad d f = false := by
        unfold Filter.domClass
        rw [hcl]
        cases cl with
        | list id => simpa using h1 id rfl
        | _ => rfl
      rw [h2, a2]
      simpa [this] using hd

theorem Index.fill {E : Env} {pr : Bool} {ls : List Bytes} (h0 : ∀ l ∈ ls, 0 ∉ l) {fs : List Filter} {b b' : Build E}
    (hi : Index E fs b) (h : fill E pr (nul ls) b = .ok b') :
    ∃ gs, Reads E.bad pr ls gs ∧ Index E (fs ++ gs) b' := by
  induction ls generalizing fs b with
  | nil => cases h; exact ⟨[], .nil, by simpa using hi⟩
  | cons l ls ih =>
    simp only [nul, List.map_cons, AdBlock.fill] at ih h
    obtain ⟨b1, h1, h⟩ := Res.bind_eq_ok.1 h
    unfold fillLine at h1
    obtain ⟨⟨f, e⟩, hf, h1⟩ := Res.bind_eq_ok.1 h1
    obtain ⟨hp, _, he⟩ := parseFilter_facts (.inl rfl) (h0 l (by simp)) hf
    obtain ⟨gs, hr, hi'⟩ := ih (fun l hl => h0 l (by simp [hl])) (hi.enter hp (he rfl) h1) h
    exact ⟨f :: gs, .cons hf hr, by simpa using hi'⟩

end AdBlock
