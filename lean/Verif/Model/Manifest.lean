import Verif.Model.Text
import Verif.Model.Glob
/-
Model of javatools/manifest.py:60-890, without the change classes (Verif/Model/ManifestDiff.lean)
and the command line.

Simplifications. `os.linesep` is "\n". A section is the list of its items. Sections always have
their primary attribute (`ManifestSection.__init__` sets it; deleting it from outside is not
modelled), so `primary()` is never `None`. An archive is the list of its entries in directory
order with their contents; `ZipFile.read(name)` gives the content of the last entry of that name,
as `ZipFile.NameToInfo` does. The hash functions are parameters.
-/
namespace Javatools

/-! ### Sections -/

/-- `ManifestSection` (javatools/manifest.py:230-305): its items. -/
abbrev Section := PyDict Str Str

def kName : Str := "Name".toList
def kManifestVersion : Str := "Manifest-Version".toList
def kSignatureVersion : Str := "Signature-Version".toList

/-- javatools/manifest.py:245-257 `ManifestSection.__setitem__` -/
def setItem (s : Section) (k v : Str) : Res Section :=
  if k.length > 68 then .error .manifestKey else .ok (PyDict.set s k v)

/-- javatools/manifest.py:235-237 `ManifestSection.__init__`: `str(None)` is "None". -/
def newSection (name : Str) : Section := [(kName, name)]

/-- javatools/manifest.py:259-264 `ManifestSection.primary` -/
def primary (s : Section) : Str := (PyDict.get? s kName).getD "None".toList

/-- One parsed attribute: key and the lines of its value. -/
abbrev RawItem := Str × List Str

/-- javatools/manifest.py:267-273 `ManifestSection.load` -/
def loadItems (s : Section) : List RawItem → Res Section
  | [] => .ok s
  | (k, vals) :: rest =>
    match setItem s k vals.flatten with
    | .error e => .error e
    | .ok s => loadItems s rest

/-- javatools/manifest.py:300-304 `ManifestSection.keys_with_suffix` -/
def keysWithSuffix (s : Section) (suffix : Str) : List Str :=
  ((PyDict.keys s).filter fun k => endsWith k suffix).map fun k => rstripChars k suffix

/-! ### Writing -/

/-- The continuation lines of javatools/manifest.py:788-793: 69 bytes at a time. The fuel is the
number of bytes left. -/
def contLines (ls : Bytes) : Nat → Bytes → Bytes
  | 0, _ => []
  | fuel + 1, kv =>
    if kv.isEmpty then [] else ls ++ 32 :: kv.take 69 ++ contLines ls fuel (kv.drop 69)

/-- javatools/manifest.py:761-801 `write_key_val`: the bytes written. An empty value becomes the
`str` "" (line 776) which a binary stream refuses (line 799). -/
def writeKeyVal (key val ls : Str) : Res Bytes :=
  let k := encodeUtf8 key
  let v := encodeUtf8 val
  let sep := encodeUtf8 ls
  if ¬ (0 < k.length ∧ k.length < 69) then .error .manifestKey
  else if k.length + v.length > 68 then
    let kv := k ++ [58, 32] ++ v
    .ok (kv.take 70 ++ contLines sep (kv.drop 70).length (kv.drop 70) ++ sep)
  else if v.isEmpty then .error .typeError
  else .ok (k ++ [58, 32] ++ v ++ sep)

/-- The items of a section, written one after the other. -/
def writeItems (ls : Str) : Section → Res Bytes
  | [] => .ok []
  | (k, v) :: rest =>
    match writeKeyVal k v ls with
    | .error e => .error e
    | .ok b =>
      match writeItems ls rest with
      | .error e => .error e
      | .ok bs => .ok (b ++ bs)

/-- javatools/manifest.py:276-297 `ManifestSection.store` and `get_data` -/
def sectionData (s : Section) (ls : Str) : Res Bytes :=
  match writeItems ls s with
  | .error e => .error e
  | .ok b => .ok (b ++ encodeUtf8 ls)

/-! ### Parsing -/

/-- `curr[-1][1].append(x)` -/
def appendLast (x : Str) : List RawItem → List RawItem
  | [] => []
  | [(k, vs)] => [(k, vs ++ [x])]
  | i :: is => i :: appendLast x is

/-- javatools/manifest.py:703-758 `parse_sections`, from the lines: the sections yielded and the
exception that ends the generator, if any. `curr` is empty for `None`: the code never keeps an empty
list (either an item is appended to it or an exception is raised). -/
def parseLines (curr : List RawItem) : List Str → List (List RawItem) × Option PyErr
  | [] => (if curr.isEmpty then [] else [curr], none)
  | line :: lines =>
    match line.filter (fun c => c ≠ '\x00') with
    | [] =>
      if curr.isEmpty then parseLines [] lines
      else
        let r := parseLines [] lines
        (curr :: r.1, r.2)
    | c :: cs =>
      if c = ' ' then
        if curr.isEmpty then ([], some .malformedManifest)
        else parseLines (appendLast cs curr) lines
      else
        match splitFirst ':' (c :: cs) with
        | none => ([], some .malformedManifest)
        | some (key, val) => parseLines (curr ++ [(key, [val.tail])]) lines

/-- javatools/manifest.py:703-758 `parse_sections` -/
def parseSections (data : Str) : List (List RawItem) × Option PyErr := parseLines [] (splitLines data)

/-- javatools/manifest.py:696-700 `detect_linesep` -/
def detectLinesep (data : Str) : Str := if hasSub "\r\n".toList data then "\r\n".toList else "\n".toList

/-! ### Manifests -/

/-- `Manifest` and `SignatureManifest` (javatools/manifest.py:308-651). The two classes differ in
the primary key given to the constructor. -/
structure Manifest where
  main : Section
  subs : PyDict Str Section
  linesep : Option Str
  deriving DecidableEq, Repr

/-- javatools/manifest.py:321-325 `Manifest.__init__` -/
def Manifest.new (pk : Str) (version : Str) (linesep : Option Str) : Manifest :=
  { main := [(pk, version)], subs := [], linesep }

/-- `Manifest()` -/
def emptyManifest : Manifest := Manifest.new kManifestVersion "1.0".toList none

/-- `SignatureManifest(linesep=…)` -/
def emptySignature (linesep : Option Str) : Manifest :=
  Manifest.new kSignatureVersion "1.0".toList linesep

/-- javatools/manifest.py:328-346 `Manifest.create_section`: the section returned and the new
manifest. -/
def createSection (m : Manifest) (name : Str) (overwrite : Bool) : Section × Manifest :=
  if overwrite then
    let sect := newSection name
    (sect, { m with subs := PyDict.set m.subs name sect })
  else
    match PyDict.get? m.subs name with
    | some sect => (sect, m)
    | none =>
      let sect := newSection name
      (sect, { m with subs := PyDict.set m.subs name sect })

/-- The sub sections of javatools/manifest.py:387-390. -/
def loadSubs (subs : PyDict Str Section) : List (List RawItem) → Res (PyDict Str Section)
  | [] => .ok subs
  | items :: rest =>
    match loadItems (newSection "None".toList) items with
    | .error e => .error e
    | .ok s => loadSubs (PyDict.set subs (primary s) s) rest

/-- javatools/manifest.py:370-390 `Manifest.parse`. The generator is consumed section by section, so
an overlong key in a section is reported before a bad line after it. -/
def Manifest.parse (m : Manifest) (data : Bytes) : Res Manifest :=
  let text := decodeIgnore data
  match parseSections text with
  | ([], some e) => .error e
  | ([], none) => .error .stopIteration
  | (first :: rest, err) =>
    match loadItems m.main first with
    | .error e => .error e
    | .ok main =>
      match loadSubs m.subs rest with
      | .error e => .error e
      | .ok subs =>
        match err with
        | some e => .error e
        | none => .ok { main, subs, linesep := some (detectLinesep text) }

/-- `linesep or self.linesep or os.linesep` -/
def orLinesep (arg self : Option Str) : Str :=
  match arg with
  | some (c :: cs) => c :: cs
  | _ =>
    match self with
    | some (c :: cs) => c :: cs
    | _ => "\n".toList

/-- `a > b` for bytes -/
def bytesGt : Bytes → Bytes → Bool
  | [], _ => false
  | _ :: _, [] => true
  | a :: as, b :: bs => if a = b then bytesGt as bs else decide (b < a)

/-- Insertion into a sorted list, before the first element that is greater. -/
def insertSection (x : Bytes × Section) : List (Bytes × Section) → List (Bytes × Section)
  | [] => [x]
  | y :: ys => if bytesGt y.1 x.1 then x :: y :: ys else y :: insertSection x ys

/-- `get_data()` of every section, in order. -/
def allData (ls : Str) : List Section → Res (List (Bytes × Section))
  | [] => .ok []
  | s :: ss =>
    match sectionData s ls with
    | .error e => .error e
    | .ok b =>
      match allData ls ss with
      | .error e => .error e
      | .ok r => .ok ((b, s) :: r)

/-- `sorted(self.sub_sections.values())` (javatools/manifest.py:403): the order is that of the
bytes of `get_data()` with the default separator (240-242). A stable sort; the sort meets the
sections in order, so the first one that cannot be serialised is the one that raises. (With a
single section nothing is compared; the same exception is then raised by its `store`.) -/
def sortedSections (subs : PyDict Str Section) : Res (List Section) :=
  match allData "\n".toList (subs.map Prod.snd) with
  | .error e => .error e
  | .ok ds => .ok ((ds.foldl (fun acc x => insertSection x acc) []).map Prod.snd)

/-- The sections, serialised one after the other. -/
def writeSections (ls : Str) : List Section → Res Bytes
  | [] => .ok []
  | s :: ss =>
    match sectionData s ls with
    | .error e => .error e
    | .ok b =>
      match writeSections ls ss with
      | .error e => .error e
      | .ok bs => .ok (b ++ bs)

/-- javatools/manifest.py:393-404, 420-430 `Manifest.store` and `get_data` -/
def Manifest.getData (m : Manifest) (linesep : Option Str := none) : Res Bytes :=
  let ls := orLinesep linesep m.linesep
  match sectionData m.main ls with
  | .error e => .error e
  | .ok b =>
    match sortedSections m.subs with
    | .error e => .error e
    | .ok ss =>
      match writeSections ls ss with
      | .error e => .error e
      | .ok bs => .ok (b ++ bs)

/-- javatools/manifest.py:407-417 `Manifest.get_main_section` -/
def Manifest.getMain (m : Manifest) (linesep : Option Str := none) : Res Bytes :=
  sectionData m.main (orLinesep linesep m.linesep)

/-- javatools/manifest.py:491-501 `Manifest.clear` -/
def Manifest.clear (m : Manifest) : Manifest := { m with main := [], subs := [] }

/-! ### Digests -/

/-- The functions hashlib has (javatools/manifest.py:96-124). -/
structure Hashes where
  md2 : Option (Bytes → Bytes)
  md5 : Bytes → Bytes
  sha1 : Bytes → Bytes
  sha256 : Bytes → Bytes
  sha384 : Bytes → Bytes
  sha512 : Bytes → Bytes

/-- javatools/manifest.py:103-110 `_get_digest` -/
def Hashes.get (H : Hashes) (name : Str) : Res (Bytes → Bytes) :=
  if name = "MD2".toList then
    match H.md2 with
    | some h => .ok h
    | none => .error .unsupportedDigest
  else if name = "MD5".toList then .ok H.md5
  else if name = "SHA1".toList then .ok H.sha1
  else if name = "SHA-256".toList then .ok H.sha256
  else if name = "SHA-384".toList then .ok H.sha384
  else if name = "SHA-512".toList then .ok H.sha512
  else .error .unsupportedDigest

def sDigest : Str := "-Digest".toList
def sDigestManifest : Str := "-Digest-Manifest".toList
def sDigestMain : Str := "-Digest-Manifest-Main-Attributes".toList

/-- The loop over the digest names (javatools/manifest.py:452-465, 560-568, 577-587, 617-627):
does one of them match the attribute `name ++ suffix` of the section? -/
def matchDigest (H : Hashes) (data : Res Bytes) (s : Section) (suffix : Str) : List Str → Res Bool
  | [] => .ok false
  | d :: ds =>
    match data with
    | .error e => .error e
    | .ok b =>
      match H.get d with
      | .error e => .error e
      | .ok h =>
        if some (b64encode (h b)) = PyDict.get? s (d ++ suffix) then .ok true
        else matchDigest H data s suffix ds

/-! ### Archives -/

/-- The entries of an archive. -/
abbrev Zip := List (Str × Bytes)

/-- `ZipFile.namelist()` -/
def namelist (z : Zip) : List Str := z.map Prod.fst

/-- `ZipFile.read(name)` -/
def zipRead (z : Zip) (name : Str) : Res Bytes :=
  match PyDict.get? z.reverse name with
  | some b => .ok b
  | none => .error .keyError

def sMetaInf : Str := "META-INF".toList
def sManifestMf : Str := "META-INF/MANIFEST.MF".toList

/-- javatools/manifest.py:878-880 `_in_sig_related_dir` -/
def inSigDir (filename : Str) : Bool :=
  match splitAll '/' filename with
  | [d, _] => d = sMetaInf
  | _ => false

variable (up : Char → Str)

/-- javatools/manifest.py:883-885 `file_matches_sigfile` -/
def matchesSigfile (filename : Str) : Bool :=
  inSigDir filename && fnmatches (upperWith up filename) ["*.SF".toList]

/-- javatools/manifest.py:888-890 `file_matches_sigblock` -/
def matchesSigblock (filename : Str) : Bool :=
  inSigDir filename &&
    fnmatches (upperWith up (filename.drop 9))
      ["*.RSA".toList, "*.DSA".toList, "*.EC".toList, "SIG-*".toList]

/-- javatools/manifest.py:893-900 `file_skips_verification` -/
def skipsVerification (filename : Str) : Bool :=
  let f := upperWith up filename
  decide (f = sManifestMf) || endsWith f "/".toList || matchesSigblock up f || matchesSigfile up f

/-! ### Verification -/

/-- javatools/manifest.py:433-467 `verify_jar_checksums`: the failed entries and the manifest
(sections are created for entries that have none). `names` is what is left of the name list. -/
def verifyEntries (H : Hashes) (z : Zip) (strict : Bool) (m : Manifest) :
    List Str → Res (List Str × Manifest)
  | [] => .ok ([], m)
  | f :: fs =>
    if skipsVerification up f then verifyEntries H z strict m fs
    else
      let r := createSection m f false
      let digests := keysWithSuffix r.1 sDigest
      if digests.isEmpty && strict then
        match verifyEntries H z strict r.2 fs with
        | .error e => .error e
        | .ok (fails, m') => .ok (f :: fails, m')
      else
        match matchDigest H (zipRead z f) r.1 sDigest digests with
        | .error e => .error e
        | .ok true => verifyEntries H z strict r.2 fs
        | .ok false =>
          match verifyEntries H z strict r.2 fs with
          | .error e => .error e
          | .ok (fails, m') => .ok (f :: fails, m')

def verifyJarChecksums (H : Hashes) (m : Manifest) (z : Zip) (strict : Bool := true) :
    Res (List Str × Manifest) :=
  verifyEntries up H z strict m (namelist z)

/-- The loop of javatools/manifest.py:481-488. -/
def addEntries (h : Bytes → Bytes) (key : Str) (z : Zip) (m : Manifest) : List Str → Res Manifest
  | [] => .ok m
  | f :: fs =>
    if skipsVerification up f then addEntries h key z m fs
    else
      match zipRead z f with
      | .error e => .error e
      | .ok b =>
        match setItem (newSection f) key (b64encode (h b)) with
        | .error e => .error e
        | .ok s => addEntries h key z { m with subs := PyDict.set m.subs f s } fs

/-- javatools/manifest.py:470-488 `add_jar_entries` -/
def addJarEntries (H : Hashes) (m : Manifest) (z : Zip) (digest : Str) : Res Manifest :=
  match H.get digest with
  | .error e => .error e
  | .ok h => addEntries up h (digest ++ sDigest) z m (namelist z)

/-- javatools/manifest.py:359-367 `load_from_jar` -/
def loadFromJar (z : Zip) : Res Manifest :=
  if sManifestMf ∉ namelist z then .error (.other "MissingManifestError")
  else
    match zipRead z sManifestMf with
    | .error e => .error e
    | .ok data => emptyManifest.parse data

/-! ### Signature manifests -/

/-- The loop of javatools/manifest.py:537-542: the signature manifest and the accumulated data. -/
def digestSections (h : Bytes → Bytes) (key ls : Str) (sf : Manifest) (accum : Bytes) :
    List Section → Res (Manifest × Bytes)
  | [] => .ok (sf, accum)
  | s :: ss =>
    match sectionData s ls with
    | .error e => .error e
    | .ok b =>
      match setItem (newSection (primary s)) key (b64encode (h b)) with
      | .error e => .error e
      | .ok t =>
        digestSections h key ls { sf with subs := PyDict.set sf.subs (primary s) t } (accum ++ b) ss

/-- javatools/manifest.py:518-544 `digest_manifest` -/
def digestManifest (H : Hashes) (sf m : Manifest) (alg : Str) : Res Manifest :=
  let ls := orLinesep none m.linesep
  match H.get alg with
  | .error e => .error e
  | .ok h =>
    match m.getMain with
    | .error e => .error e
    | .ok accum =>
      match setItem sf.main (alg ++ sDigestMain) (b64encode (h accum)) with
      | .error e => .error e
      | .ok main =>
        match digestSections h (alg ++ sDigest) ls { sf with main } accum (m.subs.map Prod.snd) with
        | .error e => .error e
        | .ok (sf, accum) =>
          match setItem sf.main (alg ++ sDigestManifest) (b64encode (h accum)) with
          | .error e => .error e
          | .ok main => .ok { sf with main }

/-- javatools/manifest.py:547-568 `verify_manifest_main_checksum` -/
def verifyWhole (H : Hashes) (sf m : Manifest) : Res Bool :=
  matchDigest H m.getData sf.main sDigestManifest (keysWithSuffix sf.main sDigestManifest)

/-- javatools/manifest.py:571-587 `verify_manifest_main_attributes_checksum` -/
def verifyMain (H : Hashes) (sf m : Manifest) : Res Bool :=
  matchDigest H m.getMain sf.main sDigestMain (keysWithSuffix sf.main sDigestMain)

/-- `s.get_data(manifest.linesep)`: `None.encode` is an AttributeError. -/
def sectionDataOpt (s : Section) : Option Str → Res Bytes
  | none => .error .attributeError
  | some ls => sectionData s ls

/-- javatools/manifest.py:590-629 `verify_manifest_entry_checksums` (`ls` is `manifest.linesep`) -/
def verifySections (H : Hashes) (strict : Bool) (ls : Option Str) (sf : Manifest) :
    List Section → Res (List Str × Manifest)
  | [] => .ok ([], sf)
  | s :: ss =>
    let r := createSection sf (primary s) false
    let digests := keysWithSuffix s sDigest
    if digests.isEmpty && strict then
      match verifySections H strict ls r.2 ss with
      | .error e => .error e
      | .ok (fails, sf') => .ok (primary s :: fails, sf')
    else
      match matchDigest H (sectionDataOpt s ls) r.1 sDigest digests with
      | .error e => .error e
      | .ok true => verifySections H strict ls r.2 ss
      | .ok false =>
        match verifySections H strict ls r.2 ss with
        | .error e => .error e
        | .ok (fails, sf') => .ok (primary s :: fails, sf')

/-- javatools/manifest.py:632-641 `verify_manifest` -/
def verifyManifest (H : Hashes) (sf m : Manifest) : Res (List Str) :=
  match verifyWhole H sf m with
  | .error e => .error e
  | .ok true => .ok []
  | .ok false =>
    match verifyMain H sf m with
    | .error e => .error e
    | .ok false => .ok [sManifestMf]
    | .ok true =>
      match verifySections H true m.linesep sf (m.subs.map Prod.snd) with
      | .error e => .error e
      | .ok (fails, _) => .ok fails

end Javatools
