import Verif.Model.Manifest
import Verif.Model.ClassDiff
/-
Model of the comparison of two manifests, javatools/manifest.py:127-226 and 654-669, and of the
options of jardiff and distdiff.

The texts of sections put into messages are a parameter (they are never shown, because
`get_description` is overridden).
-/
namespace Javatools

/-- The option object of jardiff and distdiff: the boolean attributes, and those that are lists of
strings (`ignore_manifest_key`, `ignore_jar_entry`, `ignore_filenames`). A missing attribute is
the same as an empty one. -/
structure DiffOpts where
  flags : Opts
  manifestKeys : List Str
  jarEntries : List Str
  filenames : List Str

/-- `options.name` -/
def DiffOpts.attr (o : DiffOpts) (name : String) : Bool := o.flags.attr name

/-- A rule about options, as a rule about larger option objects. -/
def IgnoreRule.comap {O P : Type} (f : P → O) : IgnoreRule O → IgnoreRule P
  | .inherit => .inherit
  | .only rule => .only fun o => rule (f o)
  | .orElse rule => .orElse fun o => rule (f o)

def Hdr.comap {O P : Type} (f : P → O) (h : Hdr O) : Hdr P :=
  { typeName := h.typeName, label := h.label, entry := h.entry, kind := h.kind,
    describe := h.describe, ign := h.ign.comap f }

namespace Change
variable {O P : Type}

mutual
/-- The same change object, asked about larger option objects. -/
def comap (f : P → O) : Change O → Change P
  | leaf h cmp changed desc => leaf (h.comap f) cmp changed desc
  | super h short changed desc children => super (h.comap f) short changed desc (comapAll f children)
  | squashed h oc changed desc ignored => squashed (h.comap f) oc changed desc ignored
def comapAll (f : P → O) : List (Change O) → List (Change P)
  | [] => []
  | c :: cs => comap f c :: comapAll f cs
end

end Change

/-! ### Sections -/

/-- javatools/manifest.py:147-149, 195-197: the keys of the symmetric difference of the sets of
items. -/
def changedKeys (l r : Section) : List Str :=
  ((l.filter fun p => p ∉ r) ++ (r.filter fun p => p ∉ l)).map Prod.fst

/-- javatools/manifest.py:145-153, 193-201: the part of `is_ignored` about keys. -/
def keysIgnored (keys : List Str) (l r : Section) : Bool :=
  if keys.isEmpty then false else (changedKeys l r).all fun k => k ∈ keys

/-- javatools/manifest.py:127-153 `ManifestSectionChange(l, r)` -/
def sectionChange (text : Section → Str) (l r : Section) : Change DiffOpts :=
  .leaf {
      typeName := "ManifestSectionChange", label := "Manifest Subsection".toList,
      describe := some fun b =>
        "Manifest Subsection".toList ++ (if b then " Changed: ".toList else " Unchanged: ".toList) ++
          primary (if l.isEmpty then r else l),
      ign := .only fun o =>
        if o.attr "ignore_manifest_subsections" then true else keysIgnored o.manifestKeys l r }
    (some (checkImpl "Manifest Subsection".toList (.ok (!decide (l = r))) (.ok (text l))
      (.ok (text r)))) false none

/-- javatools/manifest.py:156-166 `ManifestSectionAdded(None, r)` -/
def sectionAdded (text : Section → Str) (r : Section) : Change DiffOpts :=
  .leaf {
      typeName := "ManifestSectionAdded", label := "Manifest Subsection Added".toList,
      kind := .addition,
      describe := some fun _ => "Manifest Subsection Added: ".toList ++ primary r,
      ign := .only fun o => o.attr "ignore_manifest_subsections" }
    (some (checkImpl "Manifest Subsection Added".toList (.ok true) (.ok "None".toList)
      (.ok (text r)))) false none

/-- javatools/manifest.py:169-178 `ManifestSectionRemoved(l, None)` -/
def sectionRemoved (text : Section → Str) (l : Section) : Change DiffOpts :=
  .leaf {
      typeName := "ManifestSectionRemoved", label := "Manifest Subsection Removed".toList,
      kind := .removal,
      describe := some fun _ => "Manifest Subsection Removed: ".toList ++ primary l,
      ign := .only fun o => o.attr "ignore_manifest_subsections" }
    (some (checkImpl "Manifest Subsection Removed".toList (.ok true) (.ok (text l))
      (.ok "None".toList))) false none

/-- javatools/manifest.py:181-201 `ManifestMainChange(lm, rm)`: the manifests compare as
dictionaries, which are their main sections. -/
def mainChange (text : Section → Str) (l r : Section) : Change DiffOpts :=
  .leaf {
      typeName := "ManifestMainChange", label := "Manifest Main Section".toList,
      describe := some fun b =>
        "Manifest Main Section".toList ++ (if b then " has changed".toList else " is unchanged".toList),
      ign := .only fun o => keysIgnored o.manifestKeys l r }
    (some (checkImpl "Manifest Main Section".toList (.ok (!decide (l = r))) (.ok (text l))
      (.ok (text r)))) false none

/-! ### Manifests -/

/-- `m.sub_sections[s]` for a key `s`. -/
def subSection (m : Manifest) (s : Str) : Section := (PyDict.get? m.subs s).getD []

/-- javatools/manifest.py:209-222 `ManifestChange.collect_impl`. `order` gives the order of
iteration of a set that is built from a list. -/
def manifestChildren (order : List Str → List Str) (text : Section → Str) (l r : Manifest) :
    List (Change DiffOpts) :=
  mainChange text l.main r.main ::
    ((order (l.subs.keys.filter fun s => s ∈ r.subs.keys)).map fun s =>
      sectionChange text (subSection l s) (subSection r s)) ++
    ((order (l.subs.keys.filter fun s => s ∉ r.subs.keys)).map fun s =>
      sectionRemoved text (subSection l s)) ++
    ((order (r.subs.keys.filter fun s => s ∉ l.subs.keys)).map fun s =>
      sectionAdded text (subSection r s))

/-- javatools/manifest.py:204-226 `ManifestChange(l, r)` -/
def manifestChange (order : List Str → List Str) (text : Section → Str) (l r : Manifest) :
    Change DiffOpts :=
  .super { typeName := "ManifestChange", label := "Manifest".toList,
           ign := .orElse fun o => o.attr "ignore_manifest" }
    none false none (manifestChildren order text l r)

/-- javatools/manifest.py:654-659 `SignatureManifestChange(l, r)` -/
def signatureManifestChange (order : List Str → List Str) (text : Section → Str) (l r : Manifest) :
    Change DiffOpts :=
  .super { typeName := "SignatureManifestChange", label := "Signature File".toList,
           ign := .orElse fun o => o.attr "ignore_jar_signature" }
    none false none (manifestChildren order text l r)

/-- javatools/manifest.py:662-669 `SignatureBlockFileChange(l, r)` for two byte strings; whether
they differ is given. -/
def signatureBlockFileChange (differ : Bool) : Change DiffOpts :=
  .leaf { typeName := "SignatureBlockFileChange", label := "Signature Block File".toList,
          describe := some fun _ => "[binary data change]".toList }
    (some (checkImpl "Signature Block File".toList (.ok differ) (.ok "[binary data]".toList)
      (.ok "[binary data]".toList))) false none

end Javatools
