import Verif.Model.Manifest
/-
Model of javatools/jarutil.py: verifying and signing archives.

The cryptographic operations (javatools/crypto.py, that is M2Crypto/OpenSSL) are parameters.
Archives are lists of entries; `ZipFile.read` by name gives the last entry of that name, and
`writestr` appends an entry even if the name is present (zipfile only warns). File names and file
contents of certificates and keys are not distinguished.
-/
namespace Javatools

/-- javatools/crypto.py:73-217 -/
structure Crypto where
  /-- `verify_signature_block(certificate_file, content, signature)` -/
  verifyBlock : Str → Bytes → Bytes → Res Unit
  /-- `private_key_type(key_file)` -/
  keyType : Str → Res Str
  /-- `create_signature_block(openssl_digest, certificate, private_key, extra_certs, data)` (the
  digest by its Java name) -/
  signBlock : Str → Str → Str → Option (List Str) → Bytes → Res Bytes

def eVerification : PyErr := .other "VerificationError"
def eSignatureMissing : PyErr := .other "JarSignatureMissingError"
def eSignatureBlock : PyErr := .other "SignatureBlockVerificationError"
def eSignatureBlockFile : PyErr := .other "SignatureBlockFileVerificationError"
def eManifestChecksum : PyErr := .other "ManifestChecksumError"
def eJarChecksum : PyErr := .other "JarChecksumError"

def sMetaInfDir : Str := "META-INF/".toList

variable (up : Char → Str)

/-- javatools/jarutil.py:90-118: the name of the signature file. -/
def chooseSf (sfFiles : List Str) (sfName : Option Str) : Res Str :=
  match sfFiles with
  | [] => .error eSignatureMissing
  | [f] =>
    match sfName with
    | none => .ok f
    | some n => if f = sMetaInfDir ++ n then .ok f else .error eVerification
  | fs =>
    match sfName with
    | none => .error eVerification
    | some n => if sMetaInfDir ++ n ∈ fs then .ok (sMetaInfDir ++ n) else .error eVerification

/-- javatools/jarutil.py:120 `sf_filename[9:-3]` -/
def keyAlias (sf : Str) : Str := (sf.take (sf.length - 3)).drop 9

/-- javatools/jarutil.py:129-134: the first extension for which there is a block file. -/
def findBlock (names : List Str) (alias : Str) : List Str → Option Str
  | [] => none
  | e :: es =>
    if sMetaInfDir ++ alias ++ '.' :: e ∈ names then some (sMetaInfDir ++ alias ++ '.' :: e)
    else findBlock names alias es

/-- javatools/jarutil.py:149-176: steps 2 and 3, for the bytes of the signature file. -/
def verifyContents (H : Hashes) (z : Zip) (sfData : Bytes) : Res Unit :=
  match (emptySignature none).parse sfData with
  | .error e => .error e
  | .ok sf =>
    match loadFromJar z with
    | .error e => .error e
    | .ok m =>
      match verifyManifest H sf m with
      | .error e => .error e
      | .ok (_ :: _) => .error eManifestChecksum
      | .ok [] =>
        match verifyJarChecksums up H m z with
        | .error e => .error e
        | .ok (_ :: _, _) => .error eJarChecksum
        | .ok ([], _) => .ok ()

/-- javatools/jarutil.py:72-176 `verify` -/
def verify (C : Crypto) (H : Hashes) (cert : Str) (z : Zip) (sfName : Option Str) : Res Unit :=
  match chooseSf ((namelist z).filter (matchesSigfile up)) sfName with
  | .error e => .error e
  | .ok f =>
    match zipRead z f with
    | .error e => .error e
    | .ok sfData =>
      match findBlock (namelist z) (keyAlias f) ["RSA".toList, "DSA".toList, "EC".toList] with
      | none => .error eSignatureMissing
      | some b =>
        match zipRead z b with
        | .error e => .error e
        | .ok sig =>
          match C.verifyBlock cert sfData sig with
          | .error e => if e = eSignatureBlock then .error eSignatureBlockFile else .error e
          | .ok () => verifyContents up H z sfData

/-- javatools/jarutil.py:213-216: the old entries other than the manifest, read by name. -/
def copyEntries (z : Zip) : List Str → Res Zip
  | [] => .ok []
  | n :: ns =>
    if upperWith up n = sManifestMf then copyEntries z ns
    else
      match zipRead z n with
      | .error e => .error e
      | .ok b =>
        match copyEntries z ns with
        | .error e => .error e
        | .ok rest => .ok ((n, b) :: rest)

/-- `ZipInfo.__init__` cuts names at NUL. -/
def zipName (n : Str) : Str := n.takeWhile fun c => c ≠ '\x00'

/-- javatools/jarutil.py:179-220 `sign`, the entries of the new archive. `digest` is a name
(`None` fails in `add_jar_entries`). -/
def sign (C : Crypto) (H : Hashes) (z : Zip) (cert key alias : Str) (extra : Option (List Str))
    (digest : Str) : Res Zip :=
  match loadFromJar z with
  | .error e => .error e
  | .ok m0 =>
    match addJarEntries up H m0 z digest with
    | .error e => .error e
    | .ok m =>
      match digestManifest H (emptySignature m.linesep) m digest with
      | .error e => .error e
      | .ok sf =>
        match C.keyType key with
        | .error e => .error e
        | .ok ext =>
          match H.get digest with
          | .error e => .error e
          | .ok _ =>
            match sf.getData with
            | .error e => .error e
            | .ok sfData =>
              match C.signBlock digest cert key extra sfData with
              | .error e => .error e
              | .ok sig =>
                match m.getData with
                | .error e => .error e
                | .ok mfData =>
                  match copyEntries up z (namelist z) with
                  | .error e => .error e
                  | .ok rest =>
                    .ok ((sManifestMf, mfData) ::
                      (zipName (sMetaInfDir ++ alias ++ ".SF".toList), sfData) ::
                      (zipName (sMetaInfDir ++ alias ++ '.' :: ext), sig) :: rest)

/-- Is the exception a `VerificationError`? (javatools/jarutil.py:48-65) -/
def isVerificationError (e : PyErr) : Bool :=
  e = eVerification || e = eSignatureMissing || e = eSignatureBlockFile || e = eManifestChecksum ||
    e = eJarChecksum

/-- javatools/jarutil.py:317-342 `cli_verify_jar_signature`, the exit status: the archive name is
looked up in `files`. -/
def cliVerify (C : Crypto) (H : Hashes) (files : Str → Res Zip) (args : List Str) : Res Int :=
  match args with
  | [jar, cert] => go jar cert none
  | [jar, cert, n] => go jar cert (some n)
  | _ => .ok 1
where
  go (jar cert : Str) (n : Option Str) : Res Int :=
    match files jar with
    | .error e => .error e
    | .ok z =>
      match verify up C H cert z n with
      | .ok () => .ok 0
      | .error e =>
        if e = .other "CryptoDisabled" then .ok (-1)
        else if isVerificationError e then .ok 1
        else .error e

end Javatools
