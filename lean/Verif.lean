import Verif.Model.Adjacent
import Verif.Model.Base
import Verif.Model.Content
import Verif.Model.ContentDe
import Verif.Model.De
import Verif.Model.FieldAttrs
import Verif.Model.Flatten
import Verif.Model.From
import Verif.Model.Message
import Verif.Model.Open
import Verif.Model.Parser
import Verif.Model.Raw
import Verif.Model.Ser
import Verif.Model.Span
import Verif.Model.Tagged
import Verif.Model.Utf8
import Verif.Model.Value
import Verif.Model.ValueDe
import Verif.Spec.Adjacent
import Verif.Spec.AnyNumber
import Verif.Spec.Attr
import Verif.Spec.B64Found
import Verif.Spec.BadNumbers
import Verif.Spec.BadRange
import Verif.Spec.BadStrings
import Verif.Spec.BadTy
import Verif.Spec.Base64
import Verif.Spec.Before
import Verif.Spec.Broken
import Verif.Spec.Buffer
import Verif.Spec.Clean
import Verif.Spec.Closed
import Verif.Spec.Compact
import Verif.Spec.Content
import Verif.Spec.Covered
import Verif.Spec.Docs
import Verif.Spec.ExtDiff
import Verif.Spec.Feed
import Verif.Spec.FieldAttrs
import Verif.Spec.Fields
import Verif.Spec.FinMap
import Verif.Spec.Fit
import Verif.Spec.Flatten
import Verif.Spec.Float
import Verif.Spec.From
import Verif.Spec.HasTy
import Verif.Spec.IntLit
import Verif.Spec.Lang
import Verif.Spec.Layout
import Verif.Spec.Need
import Verif.Spec.OneChar
import Verif.Spec.Range
import Verif.Spec.Raw
import Verif.Spec.Rend
import Verif.Spec.Reread
import Verif.Spec.Ron
import Verif.Spec.SelfDesc
import Verif.Spec.Strings
import Verif.Spec.Tagged
import Verif.Spec.Takes
import Verif.Spec.Through
import Verif.Spec.TyLang
import Verif.Spec.Typed
import Verif.Lemmas.Adjacent
import Verif.Lemmas.AdjacentErr
import Verif.Lemmas.AnyNumber
import Verif.Lemmas.Attr
import Verif.Lemmas.BadFields
import Verif.Lemmas.BadFloats
import Verif.Lemmas.BadMain
import Verif.Lemmas.BadNumbers
import Verif.Lemmas.BadParts
import Verif.Lemmas.BadRange
import Verif.Lemmas.BadStrings
import Verif.Lemmas.Base64
import Verif.Lemmas.Basic
import Verif.Lemmas.Broken
import Verif.Lemmas.Buffer
import Verif.Lemmas.Closed
import Verif.Lemmas.Compact
import Verif.Lemmas.ContentRead
import Verif.Lemmas.ContentText
import Verif.Lemmas.Covered
import Verif.Lemmas.Cut
import Verif.Lemmas.DeAny
import Verif.Lemmas.DeWalk
import Verif.Lemmas.Deq
import Verif.Lemmas.Digits
import Verif.Lemmas.Doc
import Verif.Lemmas.DocTrack
import Verif.Lemmas.Docs
import Verif.Lemmas.Eat
import Verif.Lemmas.ExtSim
import Verif.Lemmas.Feed
import Verif.Lemmas.FieldAttrs
import Verif.Lemmas.Fields
import Verif.Lemmas.Flatten
import Verif.Lemmas.FlattenErr
import Verif.Lemmas.FlattenSer
import Verif.Lemmas.Float
import Verif.Lemmas.FloatSer
import Verif.Lemmas.Fold
import Verif.Lemmas.Frame
import Verif.Lemmas.FrameDe
import Verif.Lemmas.From
import Verif.Lemmas.Gives
import Verif.Lemmas.Ident
import Verif.Lemmas.Integer
import Verif.Lemmas.KeyRead
import Verif.Lemmas.Lang
import Verif.Lemmas.LangDoc
import Verif.Lemmas.LangSound
import Verif.Lemmas.LangX
import Verif.Lemmas.Layout
import Verif.Lemmas.Lim
import Verif.Lemmas.MapOps
import Verif.Lemmas.Message
import Verif.Lemmas.MessageHead
import Verif.Lemmas.NameEnds
import Verif.Lemmas.Named
import Verif.Lemmas.Need
import Verif.Lemmas.NumText
import Verif.Lemmas.Number
import Verif.Lemmas.Numeric
import Verif.Lemmas.OneChar
import Verif.Lemmas.Pad
import Verif.Lemmas.RangeAt
import Verif.Lemmas.Raw
import Verif.Lemmas.RawSeq
import Verif.Lemmas.RawSer
import Verif.Lemmas.Reader
import Verif.Lemmas.RendDen
import Verif.Lemmas.Repeated
import Verif.Lemmas.Safe
import Verif.Lemmas.SafeDe
import Verif.Lemmas.SafeDoc
import Verif.Lemmas.SafeTy
import Verif.Lemmas.Scan
import Verif.Lemmas.Seps
import Verif.Lemmas.SerMain
import Verif.Lemmas.SerOk
import Verif.Lemmas.SerRange
import Verif.Lemmas.SerRend
import Verif.Lemmas.SerStep
import Verif.Lemmas.Shut
import Verif.Lemmas.Strings
import Verif.Lemmas.StringsSound
import Verif.Lemmas.Tagged
import Verif.Lemmas.TaggedSer
import Verif.Lemmas.Through
import Verif.Lemmas.Tokens
import Verif.Lemmas.TyCompound
import Verif.Lemmas.TyDoc
import Verif.Lemmas.TyLangDoc
import Verif.Lemmas.TyLangReads
import Verif.Lemmas.TyLangSound
import Verif.Lemmas.TyMain
import Verif.Lemmas.TyRange
import Verif.Lemmas.TyRead
import Verif.Lemmas.TyThm
import Verif.Lemmas.Typed
import Verif.Lemmas.TypedHas
import Verif.Lemmas.Utf8
import Verif.Lemmas.ValueDe
import Verif.Lemmas.ValueHash
import Verif.Lemmas.ValueOrd
import Verif.Lemmas.ValueRt
import Verif.Lemmas.Walk
import Verif.Lemmas.Witness
import Verif.Lemmas.Write
import Verif.Lemmas.WsTrack
import Verif.Props.C01
import Verif.Props.C02
import Verif.Props.C03
import Verif.Props.C04
import Verif.Props.C05
import Verif.Props.C06
import Verif.Props.C07
import Verif.Props.C08
import Verif.Props.C09
import Verif.Props.C10
import Verif.Props.C11
import Verif.Props.C12
import Verif.Props.C13
import Verif.Props.C14
import Verif.Props.C15
import Verif.Props.C16
import Verif.Props.C17
import Verif.Props.C18
import Verif.Props.C19
import Verif.Props.C20
import Verif.Props.C21
import Verif.Props.C22
import Verif.Props.C23
import Verif.Props.C24
import Verif.Props.C25
import Verif.Props.C26
import Verif.Props.C27
import Verif.Props.C28
import Verif.Props.C29
import Verif.Props.C30
import Verif.Props.C31
import Verif.Props.C32
import Verif.Props.C33
import Verif.Props.C34
import Verif.Props.C35
import Verif.Props.C36
import Verif.Props.C37
import Verif.Props.C38
import Verif.Props.C39
import Verif.Props.C40
import Verif.Props.C41
import Verif.Props.C42
import Verif.Props.C43
import Verif.Props.C44
import Verif.Props.C45
import Verif.Props.C46
import Verif.Props.C47
import Verif.Props.C48
import Verif.Props.C49
import Verif.Props.C50
import Verif.Props.C51
import Verif.Props.C52
import Verif.Props.C53
import Verif.Props.C54
import Verif.Props.C55
import Verif.Props.C56
import Verif.Props.C57
import Verif.Props.C58
import Verif.Props.C59
import Verif.Props.C60
import Verif.Props.C61
import Verif.Props.C62
import Verif.Props.C63
import Verif.Props.C64
import Verif.Props.C65
import Verif.Props.C66
import Verif.Checks.De
import Verif.Checks.Message
import Verif.Checks.Ser
