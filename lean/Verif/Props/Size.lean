import Verif.SpecSaved
import Verif.Lemmas.Size
import Verif.Props.History
import Verif.Props.Serialize
/-
C67: how large the data are that a client writes.
-/
namespace AdBlock
open Spec

/-- what the bound on the data rests on, along a session -/
theorem run_size {E : Env} (hE : FixedBlooms E) {ops : List Op} {as : List Answer} {c c' : Client E} {n : Nat} (h : run c ops = .ok (as, c'))
    (h1 : c.startBuild.size ≤ (Client.fresh E).startBuild.size + 90 * n)
    (h2 : c.numHostAnchoredFilters ≤ n) (h3 : c.numHostAnchoredExceptionFilters ≤ n) :
    c'.startBuild.size ≤ (Client.fresh E).startBuild.size + 90 * ops.foldl loadedAfter n ∧
      c'.numHostAnchoredFilters ≤ ops.foldl loadedAfter n ∧ c'.numHostAnchoredExceptionFilters ≤ ops.foldl loadedAfter n := by
  induction ops generalizing c as n with
  | nil => cases h; exact ⟨h1, h2, h3⟩
  | cons op ops ih =>
    obtain ⟨⟨a, c1⟩, e1, h⟩ := Res.bind_eq_ok.1 h
    obtain ⟨⟨as', c2⟩, e2, h⟩ := Res.bind_eq_ok.1 h
    cases h
    simp only [List.foldl_cons]
    cases op with
    | parse input pr =>
      obtain ⟨c3, h4, e⟩ := Res.map_eq_ok.1 e1
      cases e
      obtain ⟨k1, k2, k3⟩ := parse_size hE h4
      exact ih (n := n + (input.length + 1)) e2 (by omega) (by omega) (by omega)
    | «matches» url ctx dom =>
      obtain ⟨o, h4, e⟩ := Res.map_eq_ok.1 e1
      cases e
      exact ih (n := n) e2 h1 h2 h3
    | find url ctx dom =>
      obtain ⟨o, h4, e⟩ := Res.map_eq_ok.1 e1
      cases e
      exact ih (n := n) e2 h1 h2 h3
    | addTag t =>
      cases e1
      have : (c.addTag t).startBuild = c.startBuild ∧ (c.addTag t).numHostAnchoredFilters = c.numHostAnchoredFilters ∧
          (c.addTag t).numHostAnchoredExceptionFilters = c.numHostAnchoredExceptionFilters := by
        unfold Client.addTag; split <;> exact ⟨rfl, rfl, rfl⟩
      rw [← this.1] at h1; rw [← this.2.1] at h2; rw [← this.2.2] at h3
      exact ih (n := n) e2 h1 h2 h3
    | removeTag t => cases e1; exact ih (n := n) e2 h1 h2 h3
    | tagExists t => cases e1; exact ih (n := n) e2 h1 h2 h3
    | clear => cases e1; exact ih (n := 0) e2 (Nat.le_refl _) (Nat.le_refl _) (Nat.le_refl _)
    | enableBadFingerprintDetection =>
      cases e1
      have : c.enableBadFingerprintDetection.startBuild = c.startBuild ∧ c.enableBadFingerprintDetection.numHostAnchoredFilters = c.numHostAnchoredFilters ∧
          c.enableBadFingerprintDetection.numHostAnchoredExceptionFilters = c.numHostAnchoredExceptionFilters := by
        unfold Client.enableBadFingerprintDetection; split <;> exact ⟨rfl, rfl, rfl⟩
      rw [← this.1] at h1; rw [← this.2.1] at h2; rw [← this.2.2] at h3
      exact ih (n := n) e2 h1 h2 h3

/-- **C67**: after any sequence of calls, the data a client writes take at most 90 bytes for each byte
of the lists loaded since it was last cleared, besides the two bloom filters and about 22 KB for the
empty buckets of the hash sets and the header. -/
theorem C67_size {E : Env} (hE : FixedBlooms E) {ops : List Op} {as : List Answer} {c : Client E}
    (h0 : ∀ input preserve, .parse input preserve ∈ ops → 0 ∉ input)
    (h : run (Client.fresh E) ops = .ok (as, c)) (ignoreCosmetic ignoreHtml : Bool) :
    ∃ s, c.serialize ignoreCosmetic ignoreHtml = .ok s ∧ s.totalSize = s.buffer.length ∧
      s.buffer.length ≤ 22435 + (E.fp.buffer (E.fp.new 15 80000)).length + (E.fp.buffer (E.fp.new 10 20000)).length +
        90 * loadedBytes ops := by
  obtain ⟨fs, hist⟩ := run_history .new (fun op ho input pr e => h0 input pr (e ▸ ho)) h
  refine ⟨_, serialize_eq (history_written hist) _ _, rfl, ?_⟩
  have h1 := (run_size hE (n := 0) h (Nat.le_refl _) (Nat.le_refl _) (Nat.le_refl _)).1
  have h2 := bytes_size c ignoreCosmetic ignoreHtml
  have h3 := fresh_size E
  unfold loadedBytes
  show (c.bytes ignoreCosmetic ignoreHtml).length ≤ _
  omega

/-- **C67**: so lists of up to 20 MB in all never lead to data that are too large to be written. -/
theorem C67_fits {E : Env} (hE : FixedBlooms E) (hb : ModerateBlooms E) {ops : List Op} {as : List Answer} {c : Client E}
    (h0 : ∀ input preserve, .parse input preserve ∈ ops → 0 ∉ input)
    (h : run (Client.fresh E) ops = .ok (as, c)) (hl : loadedBytes ops ≤ 20000000) : Fits c := by
  obtain ⟨hb, hb'⟩ := hb
  obtain ⟨-, h1, h2⟩ := run_size hE (n := 0) h (Nat.le_refl _) (Nat.le_refl _) (Nat.le_refl _)
  unfold loadedBytes at hl
  refine ⟨⟨Nat.lt_of_le_of_lt (Nat.le_trans h1 hl) (by decide), Nat.lt_of_le_of_lt (Nat.le_trans h2 hl) (by decide)⟩, fun s hs => ?_⟩
  obtain ⟨s', e, e1, e2⟩ := C67_size hE h0 h true true
  rw [hs] at e
  cases e
  unfold loadedBytes at e2
  rw [e1]
  omega

/-- a client that uses bloom filters of one byte, loads two rules and asks about a request -/
example : ∃ as c s, run (Client.fresh byteEnv) [.parse storedList₀ false, .matches bs%"https://a.com/banner" FOScript none] = .ok (as, c) ∧
    c.serialize true true = .ok s ∧ s.buffer.length ≤ 25267 := by
  have hok : (run (Client.fresh byteEnv) [.parse storedList₀ false, .matches bs%"https://a.com/banner" FOScript none]).isOk = true := by
    decide +kernel
  obtain ⟨⟨as, c⟩, h⟩ := Res.isOk_iff.1 hok
  obtain ⟨s, h1, -, h2⟩ := C67_size byteEnv_fixed (fun input pr hp => by
    simp only [List.mem_cons, List.not_mem_nil, or_false, reduceCtorEq, Op.parse.injEq] at hp
    rw [hp.1]; decide +kernel) h true true
  exact ⟨as, c, s, h, h1, Nat.le_trans h2 (by decide +kernel)⟩

end AdBlock
