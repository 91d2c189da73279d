import Verif.Model.Bytes
import Verif.Model.Val
import Verif.Model.Schema
import Verif.Model.Read
import Verif.Model.Write
import Verif.Spec.Format
import Verif.Spec.Schema
import Verif.Spec.Streams
import Verif.Spec.Demo
import Verif.Lemmas.Bytes
import Verif.Lemmas.Rd
import Verif.Lemmas.ReadPrim
import Verif.Lemmas.ReadMain
import Verif.Lemmas.Shape
import Verif.Lemmas.RunOn
import Verif.Lemmas.ReadTree
import Verif.Props.Reading
import Verif.Spec.Select
import Verif.Lemmas.Fields
import Verif.Lemmas.Append
import Verif.Lemmas.Wr
import Verif.Lemmas.WriteTree
import Verif.Lemmas.ReadFull
import Verif.Props.Errors
import Verif.Props.Limits
import Verif.Spec.Settle
import Verif.Spec.Decide
import Verif.Lemmas.WritePrim
import Verif.Lemmas.Derive
import Verif.Lemmas.WriteMain
import Verif.Lemmas.WriteSound
import Verif.Lemmas.WriteSettle
import Verif.Lemmas.SettleIdem
import Verif.Props.RoundTrip
import Verif.Spec.Rewrite
import Verif.Lemmas.WriteComplete
import Verif.Props.Rewrite
import Verif.Spec.Typed
import Verif.Spec.Numeral
import Verif.Lemmas.WriteFields
import Verif.Lemmas.WriteTyped
import Verif.Lemmas.Slots
import Verif.Props.Slots
import Verif.Spec.Sent
import Verif.Lemmas.Sent
import Verif.Props.Sent
import Verif.Spec.Refused
import Verif.Lemmas.Refused
import Verif.Props.Refused
import Verif.Spec.Unsent
import Verif.Lemmas.Unsent
import Verif.Props.Unsent
import Verif.Spec.Room
import Verif.Lemmas.Room
import Verif.Props.Room
import Verif.Spec.Containers
import Verif.Model.Containers
import Verif.Lemmas.Containers
import Verif.Props.Containers
import Verif.Spec.Hollow
import Verif.Lemmas.Hollow
import Verif.Props.Hollow
import Verif.Spec.Platform
import Verif.Lemmas.Platform
import Verif.Props.Platform
import Verif.Spec.Transcode
import Verif.Lemmas.Transcode
import Verif.Props.Transcode
import Verif.Spec.Damage
import Verif.Lemmas.Damage
import Verif.Props.Damage
import Verif.Spec.Edit
import Verif.Lemmas.Edit
import Verif.Props.Edit
import Verif.Model.Labels
import Verif.Spec.Labels
import Verif.Lemmas.Labels
import Verif.Props.Labels
import Verif.Spec.Alike
import Verif.Lemmas.Alike
import Verif.Props.Alike
import Verif.Model.Nav
import Verif.Spec.Nav
import Verif.Lemmas.Nav
import Verif.Props.Nav
import Verif.Model.DocCheck
import Verif.Spec.DocCheck
import Verif.Lemmas.DocCheck
import Verif.Props.DocCheck
import Verif.Model.LabelSets
import Verif.Spec.LabelSets
import Verif.Props.LabelSets
import Verif.Spec.Part
import Verif.Lemmas.Part
import Verif.Props.Part
import Verif.Spec.Group
import Verif.Lemmas.Group
import Verif.Props.Group
import Verif.Model.Hand
import Verif.Props.Hand
import Verif.Spec.Reorder
import Verif.Lemmas.Reorder
import Verif.Props.Reorder
import Verif.Model.Throw
import Verif.Props.Throw
import Verif.Props.Offsets
import Verif.Model.HandList
import Verif.Spec.HandList
import Verif.Props.HandList
import Verif.Spec.Envelope
import Verif.Props.Envelope
import Verif.Spec.Pieces
import Verif.Props.Pieces
import Verif.Spec.Bounds
import Verif.Props.Bounds
import Verif.Spec.Records
import Verif.Props.Records
import Verif.Spec.Strings
import Verif.Props.Strings
import Verif.Model.Vacant
import Verif.Spec.Vacant
import Verif.Props.Vacant
import Verif.Spec.Asked
import Verif.Props.Asked
import Verif.Spec.Either
import Verif.Lemmas.Either
import Verif.Props.Either
import Verif.Model.Guarded
import Verif.Spec.Guarded
import Verif.Props.Guarded
import Verif.Spec.Flat
import Verif.Props.Flat
import Verif.Spec.Inside
import Verif.Props.Inside
import Verif.Spec.Leaf
import Verif.Lemmas.Leaf
import Verif.Props.Leaf
import Verif.Model.Counted
import Verif.Spec.Counted
import Verif.Lemmas.Counted
import Verif.Props.Counted
import Verif.Spec.Pinned
import Verif.Lemmas.Pinned
import Verif.Props.Pinned
import Verif.Props.Ceilings
import Verif.Spec.Own
import Verif.Lemmas.Own
import Verif.Props.Own
import Verif.Lemmas.Versions
import Verif.Props.Versions
import Verif.Props.Trips
import Verif.Lemmas.PartSent
import Verif.Props.PartSent
import Verif.Model.FloatLen
import Verif.Spec.FloatLen
import Verif.Lemmas.FloatLen
import Verif.Props.FloatLen
import Verif.Model.FloatTag
import Verif.Spec.FloatTag
import Verif.Props.FloatTag
import Verif.Model.FloatOpt
import Verif.Spec.FloatOpt
import Verif.Props.FloatOpt
import Verif.Spec.Again
import Verif.Lemmas.Again
import Verif.Props.Again
import Verif.Model.Spelled
import Verif.Spec.Spelled
import Verif.Lemmas.Spelled
import Verif.Props.Spelled
import Verif.Lemmas.WriteSel
import Verif.Lemmas.Cut
import Verif.Lemmas.Contrib
import Verif.Lemmas.Unions
import Verif.Props.Checks
import Verif.Props.Unions
import Verif.Props.Prefix
import Verif.Lemmas.OnStream
import Verif.Props.Streams
import Verif.Props.StreamTypes
import Verif.Spec.Numbers
import Verif.Props.Numbers
import Verif.Lemmas.HostFree
import Verif.Spec.Order
import Verif.Lemmas.TwinRead
import Verif.Lemmas.TwinWrite
import Verif.Lemmas.TwinRun
import Verif.Lemmas.Order
import Verif.Props.Order
import Verif.Spec.Hazard
import Verif.Lemmas.ReadDefined
import Verif.Props.Defined
import Verif.Props.Documented
import Verif.Model.Meta
import Verif.Spec.Names
import Verif.Spec.Tables
import Verif.Lemmas.Sort
import Verif.Lemmas.Tables
import Verif.Lemmas.Accept
import Verif.Lemmas.Wellformed
import Verif.Lemmas.Subscript
import Verif.Lemmas.TypeIds
import Verif.Lemmas.Options
import Verif.Props.Meta
import Verif.Spec.Place
import Verif.Lemmas.Place
import Verif.Props.Callables
import Verif.Lemmas.Exact
import Verif.Props.Exact
import Verif.Spec.Sizes
import Verif.Lemmas.Sizes
import Verif.Lemmas.Cost
import Verif.Props.Sizes
import Verif.Props.Memory
import Verif.Props.Compare
import Verif.Props.Rounding
import Verif.Spec.Session
import Verif.Props.Session
import Verif.Props.Evolution
import Verif.Spec.Evolve
import Verif.Lemmas.Evolve
import Verif.Props.Compatible
import Verif.Model.Decl
import Verif.Spec.Decl
import Verif.Lemmas.Decl
import Verif.Props.Decl
import Verif.Props.Directions
import Verif.Model.Inst
import Verif.Spec.Inst
import Verif.Lemmas.Inst
import Verif.Props.Inst
import Verif.Model.Sized
import Verif.Spec.Sized
import Verif.Lemmas.Sized
import Verif.Props.Sized
import Verif.Props.FloatTrips
import Verif.Props.Descriptors
import Verif.Props.Floats
import Verif.Model.Calls
import Verif.Spec.Calls
import Verif.Lemmas.Calls
import Verif.Lemmas.CallsUnder
import Verif.Lemmas.CallsSame
import Verif.Lemmas.CallsRun
import Verif.Lemmas.CallsWrite
import Verif.Lemmas.CallsPoll
import Verif.Props.Calls
import Verif.Model.Range
import Verif.Props.Ranges
import Verif.Spec.Rename
import Verif.Lemmas.Rename
import Verif.Props.Rename
import Verif.Spec.Made
import Verif.Lemmas.Made
import Verif.Props.Made
import Verif.Model.Amalgam
import Verif.Spec.Amalgam
import Verif.Lemmas.Amalgam
import Verif.Lemmas.AmalgamText
import Verif.Props.Amalgam
import Verif.Conformance.Base
import Verif.Conformance.Trivial
import Verif.Conformance.Buffers
import Verif.Conformance.Records
import Verif.Conformance.Unions
import Verif.Conformance.Tables
import Verif.Conformance.Misuse
import Verif.Conformance.Traits
import Verif.Conformance.Shipped
import Verif.Conformance.Docs
import Verif.Conformance.Amalgam
import Verif.Axioms
