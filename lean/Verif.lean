import Verif.Lemmas.Align
import Verif.Lemmas.At
import Verif.Lemmas.Basic
import Verif.Lemmas.BoundImport
import Verif.Lemmas.Checksum
import Verif.Lemmas.Dirs
import Verif.Lemmas.Edit
import Verif.Lemmas.Exports
import Verif.Lemmas.ExportsRound
import Verif.Lemmas.Failing
import Verif.Lemmas.FailingDirs
import Verif.Lemmas.FailingKeeps
import Verif.Lemmas.FailingMore
import Verif.Lemmas.FailingOps
import Verif.Lemmas.FailingRest
import Verif.Lemmas.FailingSafe
import Verif.Lemmas.FailingSimple
import Verif.Lemmas.Hdr
import Verif.Lemmas.Header
import Verif.Lemmas.History
import Verif.Lemmas.Host
import Verif.Lemmas.Icons
import Verif.Lemmas.IconsFile
import Verif.Lemmas.IconsWrite
import Verif.Lemmas.Imports
import Verif.Lemmas.ImportsAll
import Verif.Lemmas.ImportsAllLibs
import Verif.Lemmas.ImportsAllRead
import Verif.Lemmas.ImportsAllWrite
import Verif.Lemmas.ImportsRound
import Verif.Lemmas.Load
import Verif.Lemmas.LoadConfig
import Verif.Lemmas.LoadFacts
import Verif.Lemmas.Local
import Verif.Lemmas.Loose
import Verif.Lemmas.Map
import Verif.Lemmas.Mapped
import Verif.Lemmas.Mod
import Verif.Lemmas.Mono
import Verif.Lemmas.Place
import Verif.Lemmas.Plain
import Verif.Lemmas.Rebase
import Verif.Lemmas.Rebuild
import Verif.Lemmas.Reloc
import Verif.Lemmas.ResourceData
import Verif.Lemmas.ResourceManager
import Verif.Lemmas.ResourceObjects
import Verif.Lemmas.ResourceObjectsOps
import Verif.Lemmas.ResourceObjectsState
import Verif.Lemmas.Resources
import Verif.Lemmas.ResourcesRead
import Verif.Lemmas.ResourcesRound
import Verif.Lemmas.ResourcesSafe
import Verif.Lemmas.ResourcesSort
import Verif.Lemmas.Rva
import Verif.Lemmas.SaveCheck
import Verif.Lemmas.SaveStream
import Verif.Lemmas.Shown
import Verif.Lemmas.Tls
import Verif.Lemmas.VersionInfo
import Verif.Lemmas.VersionRead
import Verif.Lemmas.View
import Verif.Lemmas.ViewRaw
import Verif.Model.Accessors
import Verif.Model.Basic
import Verif.Model.BoundImport
import Verif.Model.CStr
import Verif.Model.Checksum
import Verif.Model.Debug
import Verif.Model.DirWrite
import Verif.Model.DotNet
import Verif.Model.Edit
import Verif.Model.Entropy
import Verif.Model.Exception
import Verif.Model.Exports
import Verif.Model.Failing
import Verif.Model.FileVer
import Verif.Model.Has
import Verif.Model.Header
import Verif.Model.Icons
import Verif.Model.Image
import Verif.Model.Imports
import Verif.Model.Load
import Verif.Model.LoadConfig
import Verif.Model.Map
import Verif.Model.Mapped
import Verif.Model.Objects
import Verif.Model.Plain
import Verif.Model.Rebuild
import Verif.Model.Reloc
import Verif.Model.ResourceData
import Verif.Model.ResourceManager
import Verif.Model.ResourceObjects
import Verif.Model.Resources
import Verif.Model.Rich
import Verif.Model.Rva
import Verif.Model.SaveStream
import Verif.Model.Section
import Verif.Model.Sort
import Verif.Model.StrAt
import Verif.Model.StreamState
import Verif.Model.StreamUse
import Verif.Model.Stub
import Verif.Model.Tls
import Verif.Model.Ucs2
import Verif.Model.Utils
import Verif.Model.VersionInfo
import Verif.Props.Absent
import Verif.Props.Accessors
import Verif.Props.Attached
import Verif.Props.BoundImport
import Verif.Props.BoundKept
import Verif.Props.ByIndex
import Verif.Props.Checksum
import Verif.Props.Commute
import Verif.Props.ConfigKept
import Verif.Props.Copy
import Verif.Props.Created
import Verif.Props.Debug
import Verif.Props.Directories
import Verif.Props.DotNet
import Verif.Props.Edit
import Verif.Props.Entropy
import Verif.Props.Exception
import Verif.Props.Exports
import Verif.Props.Factory
import Verif.Props.Failing
import Verif.Props.FileVer
import Verif.Props.Has
import Verif.Props.History
import Verif.Props.IconIds
import Verif.Props.Icons
import Verif.Props.IconsMore
import Verif.Props.Imports
import Verif.Props.ImportsAll
import Verif.Props.Load
import Verif.Props.LoadConfig
import Verif.Props.Mapped
import Verif.Props.Objects
import Verif.Props.Overlay
import Verif.Props.Plain
import Verif.Props.Rebase
import Verif.Props.RebaseFile
import Verif.Props.Rebuild
import Verif.Props.RebuildIff
import Verif.Props.Reloc
import Verif.Props.Resize
import Verif.Props.ResourceData
import Verif.Props.ResourceManager
import Verif.Props.ResourceObjects
import Verif.Props.ResourceThrow
import Verif.Props.Resources
import Verif.Props.Rich
import Verif.Props.Rva
import Verif.Props.SaveAgain
import Verif.Props.SaveLoad
import Verif.Props.SaveReopen
import Verif.Props.SaveStream
import Verif.Props.Scratch
import Verif.Props.Section
import Verif.Props.Shared
import Verif.Props.SharedTls
import Verif.Props.StreamState
import Verif.Props.StreamUse
import Verif.Props.Strip
import Verif.Props.Stub
import Verif.Props.Survive
import Verif.Props.SurviveEdits
import Verif.Props.Tls
import Verif.Props.Utils
import Verif.Props.VersionEdit
import Verif.Props.VersionFormat
import Verif.Props.VersionInfo
import Verif.Props.VersionSafe
import Verif.Props.Workflow
import Verif.Props.Writers
import Verif.Props.WritersAll
import Verif.Props.WritersFile
import Verif.Props.WritersImports
import Verif.Props.WritersTls
import Verif.Spec.Arith
import Verif.Spec.Checksum
import Verif.Spec.Copy
import Verif.Spec.Debug
import Verif.Spec.DirEdit
import Verif.Spec.Exports
import Verif.Spec.Failing
import Verif.Spec.Fits
import Verif.Spec.History
import Verif.Spec.Host
import Verif.Spec.Icons
import Verif.Spec.Imports
import Verif.Spec.ImportsAll
import Verif.Spec.Layout
import Verif.Spec.Mapped
import Verif.Spec.Plain
import Verif.Spec.Rebase
import Verif.Spec.Rebuild
import Verif.Spec.Reloc
import Verif.Spec.ResourceData
import Verif.Spec.ResourceManager
import Verif.Spec.ResourceObjects
import Verif.Spec.Resources
import Verif.Spec.Rich
import Verif.Spec.SaveStream
import Verif.Spec.Tls
import Verif.Spec.VersionFormat
import Verif.Spec.VersionInfo
import Verif.Spec.Writers
