import Verif.Base
import Verif.Model.PluralForms
import Verif.Model.Language
import Verif.Model.LanguageKey
import Verif.Model.POParser
import Verif.Model.Manager
import Verif.Spec.CExpr
import Verif.Spec.Handles
import Verif.Spec.History
import Verif.Spec.Locale
import Verif.Spec.Score
import Verif.Spec.Lines
import Verif.Spec.Effect
import Verif.Spec.Observe
import Verif.Props.PluralForms
import Verif.Props.Language
import Verif.Props.Dictionary
import Verif.Props.IConv
import Verif.Props.Termination
import Verif.Props.Parse
import Verif.Spec.PoFile
import Verif.Spec.PoWriter
import Verif.Spec.Recode
import Verif.Spec.PoLog
import Verif.Props.PoFile
import Verif.Props.PoString
import Verif.Props.PoLayout
import Verif.Props.PoHeader
import Verif.Props.PoConv
import Verif.Props.PoGarbage
import Verif.Props.PoCrlf
import Verif.Props.PoLastLine
import Verif.Props.PoAccept
import Verif.Props.PoAscii
import Verif.Spec.Manager
import Verif.Spec.Loading
import Verif.Props.Manager
import Verif.Props.ManagerLoad
import Verif.Props.ManagerMore
import Verif.Spec.PoItems
import Verif.Proofs.Items
import Verif.Props.PoItems
import Verif.Spec.Logging
import Verif.Spec.Sessions
import Verif.Props.Logging
import Verif.Props.Sessions
import Verif.Props.LanguageKey
import Verif.Props.PoConsumed
import Verif.Spec.Convert
import Verif.Props.IConvSeq
import Verif.Spec.Catalogue
import Verif.Proofs.Catalogue
import Verif.Props.EndToEnd
import Verif.Proofs.Hang
import Verif.Props.PoEndless
import Verif.Proofs.ItemsLog
import Verif.Props.PoItemsLog
import Verif.Spec.PoRead
import Verif.Proofs.Read
import Verif.Proofs.Read2
import Verif.Proofs.Read3
import Verif.Proofs.Read4
import Verif.Proofs.Read5
import Verif.Proofs.ReadLe
import Verif.Proofs.ReadHang
import Verif.Props.PoRead
import Verif.Proofs.ReadBlank
import Verif.Proofs.ReadOrder
import Verif.Props.PoErrors
import Verif.Props.PoReload
import Verif.Model.Programs
import Verif.Spec.Programs
import Verif.Proofs.Broken
import Verif.Props.ReadErrors
import Verif.Props.Programs
import Verif.Props.ProgramsDir
import Verif.Props.ProgramsEnd
import Verif.Spec.Texts
import Verif.Spec.Said
import Verif.Props.Messages
import Verif.Spec.PoCut
import Verif.Proofs.Cut
import Verif.Props.PoCut
import Verif.Props.Room
import Verif.Props.Order
import Verif.Spec.Worlds
import Verif.Props.Worlds
import Verif.Model.Release
import Verif.Spec.Release
import Verif.Proofs.Release
import Verif.Props.Release
import Verif.Model.Globals
import Verif.Spec.Threads
import Verif.Proofs.Threads
import Verif.Props.Threads
import Verif.Model.Sdl
import Verif.Spec.Sdl
import Verif.Proofs.Sdl
import Verif.Props.Sdl
import Verif.Props.PoFuzzy
import Verif.Model.Reentrant
import Verif.Spec.Reentrant
import Verif.Proofs.Reentrant
import Verif.Props.Reentrant
import Verif.Model.Changing
import Verif.Spec.Changing
import Verif.Proofs.Changing
import Verif.Props.Changing
import Verif.Model.Memory
import Verif.Spec.Memory
import Verif.Proofs.Memory
import Verif.Props.Memory
import Verif.Model.TablesMemory
import Verif.Spec.TablesMemory
import Verif.Proofs.TablesMemory
import Verif.Props.TablesMemory
import Verif.Model.Starved
import Verif.Spec.Starved
import Verif.Proofs.StarvedParse
import Verif.Proofs.Starved
import Verif.Proofs.StarvedCalls
import Verif.Props.Starved
import Verif.Model.Nested
import Verif.Spec.Nested
import Verif.Proofs.NestedParse
import Verif.Proofs.NestedLoad
import Verif.Proofs.Nested
import Verif.Proofs.NestedAsk
import Verif.Proofs.NestedQuiet
import Verif.Props.Nested
import Verif.Model.Dirent
import Verif.Spec.Dirent
import Verif.Proofs.Dirent
import Verif.Proofs.DirentStep
import Verif.Props.Dirent
import Verif.Spec.Size
import Verif.Proofs.Bill
import Verif.Proofs.BillRun
import Verif.Props.Size
import Verif.Spec.Additions
import Verif.Props.Additions
import Verif.Spec.Held
import Verif.Props.Held
import Verif.Spec.Renewal
import Verif.Spec.Listed
import Verif.Spec.Concat
import Verif.Props.Concat
import Verif.Props.Listed
import Verif.Props.Renewal
import Verif.Spec.LogBound
import Verif.Props.LogBound
import Verif.Spec.Touching
import Verif.Props.Touching
import Verif.Spec.Bare
import Verif.Props.Bare
import Verif.Spec.Twice
import Verif.Props.Twice
import Verif.Spec.Copy
import Verif.Props.Copy
import Verif.Spec.Settled
import Verif.Props.Settled
import Verif.Spec.Apart
import Verif.Props.Apart
import Verif.Props.Covered
