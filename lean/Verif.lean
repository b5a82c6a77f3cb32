import Verif.Model.Base
import Verif.Model.Pack
import Verif.Proofs.Pack
import Verif.Props.Pack
import Verif.Model.ClassFile
import Verif.Proofs.ClassFile
import Verif.Proofs.Pool
import Verif.Props.ClassFile
import Verif.Model.Descriptor
import Verif.Spec.Descriptor
import Verif.Proofs.Descriptor
import Verif.Props.Descriptor
import Verif.Model.Member
import Verif.Props.Member
import Verif.Model.Annotation
import Verif.Spec.Annotation
import Verif.Proofs.Annotation
import Verif.Props.Annotation
import Verif.Model.Opcodes
import Verif.Spec.Opcodes
import Verif.Proofs.Opcodes
import Verif.Props.Opcodes
import Verif.Props.OpTable
import Verif.Model.Lines
import Verif.Props.Lines
import Verif.Model.Change
import Verif.Props.Change
import Verif.Model.ClassDiff
import Verif.Proofs.ClassDiff
import Verif.Props.ClassDiff
import Verif.Props.ClassConst
import Verif.Props.ClassIgnore
import Verif.Model.Text
import Verif.Model.Glob
import Verif.Props.Glob
import Verif.Model.Manifest
import Verif.Proofs.Text
import Verif.Proofs.Manifest
import Verif.Props.Manifest
import Verif.Props.ManifestDigest
import Verif.Props.ManifestOps
import Verif.Props.ManifestRound
import Verif.Model.JarUtil
import Verif.Model.Zip
import Verif.Model.Dir
import Verif.Props.JarVerify
import Verif.Proofs.JarSign
import Verif.Props.JarSign
import Verif.Props.Zip
import Verif.Proofs.Dir
import Verif.Props.Dir
import Verif.Props.DirCopy
import Verif.Props.ManifestDiff
import Verif.Props.JarDiff
import Verif.Props.DistMp
import Verif.Spec.TextLines
import Verif.Proofs.TextLines
import Verif.Model.DistDiff
import Verif.Props.DistDiff
import Verif.Model.Info
import Verif.Props.Info
import Verif.Proofs.Sound
import Verif.Spec.RawClass
import Verif.Props.ClassExact
import Verif.Props.AnnotationExact
import Verif.Model.Attrs
import Verif.Props.Attrs
import Verif.Props.Renumber
import Verif.Model.ManifestCli
import Verif.Props.ManifestCli
import Verif.Props.ManifestCli2
import Verif.Props.VerifyCli
import Verif.Props.CreateJar
import Verif.Model.ClassInfoCli
import Verif.Model.Simplify
import Verif.Proofs.Listing
import Verif.Props.CodeListing
import Verif.Props.ClassInfoCli
import Verif.Props.ConstListing
import Verif.Props.Declaration
import Verif.Spec.Paths
import Verif.Model.Report
import Verif.Proofs.Paths
import Verif.Props.Report
import Verif.Props.JarInfoCli
import Verif.Props.ZipAccess
import Verif.Props.ZipStream
import Verif.Model.Template
import Verif.Props.Template
import Verif.Model.JsonData
import Verif.Props.JsonData
import Verif.Model.ArgParse
import Verif.Props.ArgParse
import Verif.Model.InfoMain
import Verif.Props.InfoMain
import Verif.Model.DiffMain
import Verif.Proofs.Respects
import Verif.Props.DiffMain
import Verif.Model.ReportMain
import Verif.Props.ReportMain
import Verif.Model.DistReportMain
import Verif.Props.DistReportMain
import Verif.Model.Lifecycle
import Verif.Props.Lifecycle
import Verif.Model.Accessors
import Verif.Props.Accessors
import Verif.Model.Html
import Verif.Spec.Table
import Verif.Props.HtmlTable
import Verif.Props.Html
import Verif.Model.Markup
import Verif.Spec.Markup
import Verif.Props.Markup
import Verif.Props.MarkupCode
import Verif.Props.ReportKept
import Verif.Model.KnownArgs
import Verif.Props.KnownArgs
import Verif.Props.CmdLines
import Verif.Props.SignExact
import Verif.Props.Workflow
import Verif.Props.SignVerify
import Verif.Props.Exact
import Verif.Props.VerifyExact
import Verif.Props.RoundExact
import Verif.Props.Exact2
import Verif.Props.Exact3
import Verif.Props.DirExact
import Verif.Props.Build
import Verif.Props.Page
import Verif.Props.JarPage
import Verif.Props.DistPage
import Verif.Props.ClassPage
import Verif.Props.ClassPageText
import Verif.Props.ClassLoud
import Verif.Props.ClassForm
import Verif.Props.JarLoud
import Verif.Props.DistLoud
import Verif.Props.JarJson
import Verif.Props.DistJson
import Verif.Props.ClassRows
import Verif.Props.PageTables
import Verif.Props.ClassConsts
import Verif.Props.ClassAnnos
import Verif.Props.ClassCode
import Verif.Props.Exact4
import Verif.Props.DistExact
import Verif.Props.JarExact
import Verif.Props.ReportExact
import Verif.Props.Simplify
import Verif.Props.Exact5
import Verif.Props.ClassSelf
import Verif.Props.LifeExact
import Verif.Props.RenExact
import Verif.Props.LinkExact
import Verif.Props.StyleExact
import Verif.Props.ApartExact
