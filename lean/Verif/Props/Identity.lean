import Verif.SpecIdentity
import Verif.Props.Lists
/-
The components the manifests of the lists are for (C76).
-/
namespace AdBlock
open Spec

set_option maxRecDepth 100000 in
theorem region_components : (regionLists.all fun l => componentOf l.base64PublicKey == some l.componentId) = true := by decide +kernel

set_option maxRecDepth 100000 in
theorem default_component : componentOf defaultBase64PublicKey = some defaultComponentId := by decide +kernel

theorem identifiedBy_members {m title key : Bytes} (h : readJson m = some (manifestMembers title key)) : identifiedBy m = componentOf key := by
  unfold identifiedBy
  rw [h]
  rfl

/-- **C76**: the manifest of each list of a region identifies the component the list is to be delivered as, and so does the
default manifest. -/
theorem C76_components (dir : Bytes) :
    identifiedBy (defaultManifest dir).2 = some bs%"cffkpbalmllkdoenhmdmpbkajipdjfam" ∧
    Pointwise (fun l m => m.1 = dir ++ bs%"/" ++ l.uuid ++ bs%"-manifest.json" ∧ identifiedBy m.2 = some l.componentId)
      regionLists (regionalManifests dir) := by
  obtain ⟨h1, h2⟩ := C69_all_manifests dir
  refine ⟨(identifiedBy_members h1).trans default_component, ?_⟩
  have key : ∀ {ls : List FilterList} {ms : List (Bytes × Bytes)}, (∀ l ∈ ls, l ∈ regionLists) → Pointwise (fun l m => m.1 = dir ++ bs%"/" ++ l.uuid ++ bs%"-manifest.json" ∧
      readJson m.2 = some (manifestMembers l.title l.base64PublicKey)) ls ms →
      Pointwise (fun l m => m.1 = dir ++ bs%"/" ++ l.uuid ++ bs%"-manifest.json" ∧ identifiedBy m.2 = some l.componentId) ls ms := by
    intro ls ms hin h
    induction h with
    | nil => exact .nil
    | cons h _ ih =>
      refine .cons ⟨h.1, (identifiedBy_members h.2).trans ?_⟩ (ih fun l hl => hin l (by simp [hl]))
      simpa using List.all_eq_true.1 region_components _ (hin _ (by simp))
  exact key (fun _ h => h) h2

/-- **C76**: the components are all different. -/
theorem C76_distinct : (defaultComponentId :: regionLists.map (·.componentId)).Nodup := by decide +kernel

/-- the hash of the specification, for the examples of FIPS 180-4 -/
example : Sha.hash [] = [0xe3b0c442, 0x98fc1c14, 0x9afbf4c8, 0x996fb924, 0x27ae41e4, 0x649b934c, 0xa495991b, 0x7852b855] ∧
    Sha.hash [97, 98, 99] = [0xba7816bf, 0x8f01cfea, 0x414140de, 0x5dae2223, 0xb00361a3, 0x96177a9c, 0xb410ff61, 0xf20015ad] := by
  decide +kernel

/-- the examples of RFC 4648 -/
example : fromBase64 bs%"Zm9vYmFy" = some [102, 111, 111, 98, 97, 114] ∧ fromBase64 bs%"Zm9vYg==" = some [102, 111, 111, 98] ∧
    fromBase64 bs%"Zm9vYmE=" = some [102, 111, 111, 98, 97] ∧ fromBase64 bs%"Zm9" = none := by decide +kernel

end AdBlock
