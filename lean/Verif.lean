import Verif.Multi
import Verif.Serialize
import Verif.Visit
import Verif.Print
import Verif.OidMacro
import Verif.Fmt
import Verif.Named
import Verif.Tests
import Verif.TestsRepo
import Verif.Props.Total
import Verif.Props.Framing
import Verif.Props.Limits
import Verif.Props.Values
import Verif.Props.Contents
import Verif.Props.Der
import Verif.Props.Combinators
import Verif.Props.Serialize
import Verif.Props.Access
import Verif.Props.Any
import Verif.Props.Oid
import Verif.Props.Api
import Verif.Props.Print
import Verif.Props.Integers
import Verif.Props.OidText
import Verif.Props.Stateful
import Verif.Props.Methods
import Verif.Props.Linear
import Verif.Props.Dump
import Verif.Props.Cost
import Verif.Props.Numbers
import Verif.Props.Edit
import Verif.Props.Cuts
import Verif.Props.Canonical
import Verif.Props.Fail
import Verif.Props.FailTyped
import Verif.Props.FailInt
import Verif.Lemmas.Text
import Verif.Lemmas.Denote
import Verif.Lemmas.DerDenote
import Verif.Audit
import Verif.Props.FailComb
import Verif.Props.FailContent
import Verif.Props.AnyTag
import Verif.Props.EncodeRaw
import Verif.Props.Text
import Verif.Props.CostExact
import Verif.Schema
import Verif.SpecSchema
import Verif.Props.Schema
import Verif.Props.Doc
import Verif.TestsDoc
import Verif.Props.DumpText
import Verif.Props.Reform
import Verif.Props.Survive
import Verif.Props.ValidDer
import Verif.Props.Reproduce
import Verif.Props.Forms
import Verif.Props.Alike
import Verif.Props.Final
import Verif.Props.Faults
import Verif.Props.SetOrder
import Verif.Props.ValidExact
import Verif.Props.SchemaWrite
import Verif.SpecSchemaFail
import Verif.Props.SchemaFail
import Verif.Word
import Verif.Props.Word
import Verif.Nesting
import Verif.Props.Nesting
import Verif.Writer
import Verif.Props.Writer
import Verif.Formatter
import Verif.Props.Formatter
import Verif.Props.Row
import Verif.Props.Agree
import Verif.Props.Program
import Verif.Lang
import Verif.Props.Lang
import Verif.SpecLang
import Verif.Props.LangExact
import Verif.Props.LangLaws
import Verif.SpecCode
import Verif.Props.Codes
import Verif.SpecBer
import Verif.Props.ValidBer
import Verif.Props.BerFaults
import Verif.Props.ValidBerExact
import Verif.SpecValue
import Verif.Props.ValueBer
import Verif.Props.ValueMeaning
import Verif.SpecBuild
import Verif.Props.Build
import Verif.SpecStream
import Verif.Props.LangStream
import Verif.SpecType
import Verif.Props.TypeValue
import Verif.SpecTypeBuild
import Verif.Props.TypeBuild
import Verif.Props.TypeUnique
import Verif.CostSchema
import Verif.Props.CostSchema
import Verif.CostWrite
import Verif.Props.CostWrite
import Verif.Props.CostIndefinite
import Verif.Props.Repeat
import Verif.SpecTime
import Verif.Calendar
import Verif.Lemmas.Calendar
import Verif.Props.Times
import Verif.Slice
import Verif.SpecPlace
import Verif.Lemmas.Slice
import Verif.Lemmas.SliceMove
import Verif.Props.Place
import Verif.Target
import Verif.Props.Targets
import Verif.Props.Grow
import Verif.Props.TextSize
import Verif.TargetProg
import Verif.Props.TargetProg
import Verif.SliceSchema
import Verif.SpecPlaceSchema
import Verif.Lemmas.SliceSchema
import Verif.Lemmas.SliceSchemaMove
import Verif.Props.PlaceSchema
import Verif.Props.CostBelow
import Verif.NestingMut
import Verif.Props.NestingMut
import Verif.SliceAccess
import Verif.Props.PlaceAccess
import Verif.CostOctets
import Verif.Props.CostOctets
import Verif.CostSchemaOctets
import Verif.Props.CostSchemaOctets
import Verif.Props.CostStream
import Verif.Props.CostStreamDer
import Verif.Props.CostStreamTyped
