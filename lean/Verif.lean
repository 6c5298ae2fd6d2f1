import Verif.Machine.Basic
import Verif.Machine.Lists
import Verif.Machine.WF
import Verif.Rca.Model
import Verif.Rca.Core
import Verif.Rca.Ops
import Verif.Rca.Life
import Verif.Rca.Ops2
import Verif.Rca.Ops3
import Verif.Rca.Ops4
import Verif.Spec.Seq
import Verif.Spec.Values
import Verif.Spec.Need
import Verif.Spec.Det
import Verif.Rca.Ctors
import Verif.Rca.Caps
import Verif.Rca.History
import Verif.Rca.Reach
import Verif.Rca.Witness
import Verif.Rca.Growth
import Verif.Rca.Demand
import Verif.Rca.Need
import Verif.Cleanse
import Verif.Spec.Touch
import Verif.Props.Common
import Verif.Props.C01
import Verif.Props.C02
import Verif.Props.C03
import Verif.Props.C04
import Verif.Props.C05
import Verif.Props.C06
import Verif.Props.C07
import Verif.Props.C08
import Verif.Props.C09
import Verif.Props.C10
import Verif.Props.C11
import Verif.Props.C12
import Verif.Props.C13
import Verif.Props.C14
import Verif.Props.C15
import Verif.Props.C16
import Verif.Props.C16Chars
import Verif.Props.C17
import Verif.Props.C18
import Verif.Props.C19
import Verif.Str.Basic
import Verif.Str.Model
import Verif.Spec.Strings
import Verif.Str.Search
import Verif.Str.Order
import Verif.Str.Witness
import Verif.Str.Cut
import Verif.Props.C20
import Verif.Props.C21
import Verif.Props.C22
import Verif.Props.C23
import Verif.Props.C24
import Verif.Props.C25
import Verif.Props.C26
import Verif.Props.C27
import Verif.Props.C28
import Verif.Props.C28Fallback
import Verif.Props.C29
import Verif.Props.C29Fallback
import Verif.Props.C29Long
import Verif.Props.C30
import Verif.Props.C31
import Verif.Props.C32
import Verif.Props.C33
import Verif.Props.C34
import Verif.Props.C35
import Verif.Props.C36
import Verif.B64.Model
import Verif.Spec.Base64
import Verif.B64.Encode
import Verif.B64.Decode
import Verif.Props.C37
import Verif.Props.C38
import Verif.Props.C39
import Verif.Props.C40
import Verif.Cstr.Model
import Verif.Cstr.Lemmas
import Verif.Props.C41
import Verif.Props.C42
import Verif.Props.C43
import Verif.Stm.Model
import Verif.Spec.Stream
import Verif.Stm.Lemmas
import Verif.Stm.History
import Verif.Props.C44
import Verif.Props.C45
import Verif.Props.C46
import Verif.Props.C47
import Verif.Props.C48
import Verif.Spec.Path
import Verif.Af.Model
import Verif.Af.Path
import Verif.Af.Inv
import Verif.Af.Hist
import Verif.Af.Commit
import Verif.Props.C49
import Verif.Props.C50
import Verif.Props.C51
import Verif.Props.C52
import Verif.Props.C52More
import Verif.Props.C50Chdir
import Verif.Spec.Map
import Verif.Hash.Model
import Verif.Hash.Lemmas
import Verif.Props.C53
import Verif.Props.C54
import Verif.Tcl.Cast
import Verif.Tcl.Script
import Verif.Tcl.Registry
import Verif.Spec.TclWords
import Verif.Spec.Registry
import Verif.Props.C55
import Verif.Props.C56
import Verif.Props.C57
import Verif.Props.C57Worlds
import Verif.Props.C57General
import Verif.Props.C57Shared
import Verif.Props.C59
import Verif.Props.C59All
import Verif.Props.C61
import Verif.Props.C62
import Verif.Spec.Links
import Verif.Tcl.Links
import Verif.Props.C63
import Verif.Props.C63Relink
import Verif.Props.C64
import Verif.Ios.Model
import Verif.Props.C60
import Verif.Conc.Model
import Verif.Spec.Threads
import Verif.Conc.Inv
import Verif.Conc.Step
import Verif.Props.C58
import Verif.Prog.Logic
import Verif.Prog.Model
import Verif.Prog.Simple
import Verif.Prog.Build
import Verif.Prog.Pieces
import Verif.Props.C65
import Verif.Props.C66
import Verif.Tcl.Eval
import Verif.Props.C67
import Verif.Props.C68
import Verif.Ios.Out
import Verif.Props.C69
import Verif.Prog.ArrayOps
import Verif.Props.C70
import Verif.Prog.Convert
import Verif.Props.C71
import Verif.Prog.Iter
import Verif.Props.C72
import Verif.Spec.Streams
import Verif.Prog.Stream
import Verif.Props.C73
import Verif.Hash.Fault
import Verif.Props.C74
import Verif.Nest.Model
import Verif.Nest.Spec
import Verif.Nest.Elem
import Verif.Nest.Par
import Verif.Nest.Sim
import Verif.Nest.Cells
import Verif.Nest.Store
import Verif.Nest.Arrays
import Verif.Nest.Cut
import Verif.Nest.Calls
import Verif.Nest.Fill
import Verif.Nest.Play
import Verif.Props.C75
import Verif.Nest.Logic
import Verif.Nest.Text
import Verif.Nest.TextSpec
import Verif.Nest.Texts
import Verif.Nest.Hash
import Verif.Nest.Acts
import Verif.Str.Limit
import Verif.Props.C76
import Verif.Props.C77
import Verif.Af.Many
import Verif.Af.ManyInv
import Verif.Props.C78
import Verif.Conc.Same
import Verif.Conc.SameInv
import Verif.Conc.SameAlone
import Verif.Props.C79
import Verif.Rca.Stay
import Verif.Props.C80
import Verif.Props.C80More
import Verif.Rca.InPlace
import Verif.Props.C81
import Verif.Nest.Expiring
import Verif.Props.C82
import Verif.Spec.Interps
import Verif.Tcl.Interps
import Verif.Props.C83
import Verif.Props.C83Hooks
import Verif.Props.C83Data
import Verif.Spec.Saves
import Verif.Af.Save
import Verif.Af.Kept
import Verif.Props.C84
import Verif.Prog.Input
import Verif.Props.C85
import Verif.Spec.Events
import Verif.Tcl.Callback
import Verif.Props.C86
import Verif.Prog.Load
import Verif.Props.C87
import Verif.Spec.Tables
import Verif.Prog.Table
import Verif.Prog.TableLogic
import Verif.Props.C88
import Verif.Rca.Counter
import Verif.Rca.CounterAgree
import Verif.Props.C89
import Verif.Conc.Wipe
import Verif.Props.C90
import Verif.Tcl.Faults
import Verif.Props.C91
import Verif.Props.C92
import Verif.Conc.Table
import Verif.Props.C93
import Verif.Props.C12Shared
import Verif.Tcl.Order
import Verif.Props.C56Order
import Verif.Props.C91Order
import Verif.Tcl.Objs
import Verif.Props.C94
import Verif.Props.C95
import Verif.Conc.Interps
import Verif.Props.C96
import Verif.Cstr.Own
import Verif.Props.C97
import Verif.Spec.Hooks
import Verif.Tcl.Reenter
import Verif.Props.C98
import Verif.Spec.Elems
import Verif.Elems.Model
import Verif.Elems.Logic
import Verif.Elems.Inv
import Verif.Elems.Ops
import Verif.Elems.Calls
import Verif.Elems.Take
import Verif.Props.C99
import Verif.Deep.Model
import Verif.Deep.Spec
import Verif.Deep.Elem
import Verif.Deep.Par
import Verif.Deep.Sim
import Verif.Deep.Cells
import Verif.Deep.Store
import Verif.Deep.Arrays
import Verif.Deep.Calls
import Verif.Deep.Step
import Verif.Deep.Tower
import Verif.Deep.Play
import Verif.Props.C100
import Verif.Deep.Look
import Verif.Deep.Looks
import Verif.Props.C101
import Verif.Deep.Script
import Verif.Deep.ScriptSpec
import Verif.Deep.Scripts
import Verif.Props.C102
import Verif.Deep.Table
import Verif.Deep.TableSpec
import Verif.Deep.Names
import Verif.Deep.Tables
import Verif.Deep.TableLogic
import Verif.Deep.Elsewhere
import Verif.Props.C103
import Verif.Rca.ElemRef
import Verif.Deep.Own
import Verif.Props.C104
import Verif.Deep.Command
import Verif.Deep.CommandSpec
import Verif.Deep.Commands
import Verif.Props.C105
import Verif.Props.C105Long
import Verif.Deep.Algo
import Verif.Deep.Algos
import Verif.Props.C106
import Verif.Prog.Plain
import Verif.Spec.Plain
import Verif.Props.C107
import Verif.Props.C108
import Verif.Prog.TableList
import Verif.Spec.TableList
import Verif.Props.C109
import Verif.Deep.TableList
import Verif.Deep.TableListSpec
import Verif.Props.C110
import Verif.Rca.Debug
import Verif.Nest.Debug
import Verif.Nest.Refs
import Verif.Nest.Refs2
import Verif.Nest.Refs3
import Verif.Props.C111
import Verif.Props.C111Threads
import Verif.Props.C111Split
import Verif.Props.C111Programs
import Verif.Tests.Harness
import Verif.Tests.StringTest
import Verif.Tests.ArrayTest
import Verif.Tests.StreamTest
import Verif.Tests.HashTableTest
import Verif.Tests.AtomicFileTest
import Verif.Tests.ScriptInterpTCLTest
import Verif.Rca.Queue
import Verif.Props.C112
import Verif.Props.C112Memory
import Verif.Props.C112Cost
import Verif.B64.Overlap
import Verif.Props.C113
import Verif.Spec.Moving
import Verif.Stm.Moving
import Verif.Props.C114
import Verif.Spec.Saving
import Verif.Stm.Saving
import Verif.Props.C115
import Verif.Props.C84InTime
import Verif.Stm.SavingMany
import Verif.Props.C115Many
import Verif.Stm.Full
import Verif.Props.C116
