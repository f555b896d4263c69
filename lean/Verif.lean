import Verif.Go
import Verif.Types
import Verif.Doc
import Verif.Api
import Verif.Text
import Verif.Split
import Verif.World
import Verif.Spec
import Verif.Lemmas.Evo
import Verif.Lemmas.Num
import Verif.Lemmas.Ids
import Verif.Lemmas.Str
import Verif.Lemmas.Merge
import Verif.Lemmas.MergeVal
import Verif.Props.Ids
import Verif.Props.Api
import Verif.Props.Setters
import Verif.Props.Build
import Verif.Props.Text
import Verif.Props.Merge
import Verif.Lemmas.Bytes
import Verif.Lemmas.Copy
import Verif.Lemmas.CopyRules
import Verif.Lemmas.SplitLoop
import Verif.Lemmas.CopyOk
import Verif.Props.Print
import Verif.Props.Split
import Verif.Conc
import Verif.Lemmas.Owned
import Verif.Lemmas.DocIds
import Verif.Props.Builder
import Verif.Props.Conc
import Verif.Xml
import Verif.Unmarshal
import Verif.Marshal
import Verif.Lemmas.Xml
import Verif.Lemmas.XmlGood
import Verif.Lemmas.XmlRec
import Verif.Props.Xml
import Verif.SpecXml
import Verif.Lemmas.XmlTree
import Verif.Lemmas.XmlParts
import Verif.Lemmas.XmlRound
import Verif.Lemmas.XmlKept
import Verif.Lemmas.XmlYields
import Verif.Props.Round
import Verif.Props.Ignore
import Verif.Lemmas.XmlFine
import Verif.Lemmas.XmlFineAll
import Verif.Lemmas.XmlOutline
import Verif.Props.Numbers
import Verif.XmlText
import Verif.SpecText
import Verif.Lemmas.XmlText
import Verif.Lemmas.XmlPrint
import Verif.Props.XmlText
import Verif.Pack
import Verif.SpecPack
import Verif.Lemmas.Pack
import Verif.Lemmas.PackPath
import Verif.Lemmas.PackRound
import Verif.Props.Pack
import Verif.Writer
import Verif.Props.Writer
import Verif.Props.PackKeep
import Verif.SpecFormat
import Verif.Lemmas.XmlCtx
import Verif.Lemmas.Format
import Verif.SpecContent
import Verif.Lemmas.XmlContent
import Verif.Props.Content
import Verif.SpecNs
import Verif.Lemmas.Ns
import Verif.Lemmas.NsYields
import Verif.Lemmas.Draws
import Verif.Props.Ns
import Verif.SpecRefs
import Verif.Lemmas.Refs
import Verif.Lemmas.RefsRun
import Verif.Lemmas.Yields
import Verif.Lemmas.RefsYields
import Verif.Props.Refs
import Verif.SpecOoxml
import Verif.Props.Ooxml
import Verif.SpecSchema
import Verif.Lemmas.Schema
import Verif.Lemmas.Items
import Verif.Lemmas.Tidy
import Verif.Props.Schema
import Verif.Alias
import Verif.SpecAlias
import Verif.Lemmas.Alias
import Verif.Lemmas.AliasCopy
import Verif.Lemmas.AliasDocs
import Verif.Lemmas.AliasStep
import Verif.Lemmas.AliasReach
import Verif.Lemmas.AliasFam
import Verif.Lemmas.AliasShare
import Verif.Props.Alias
import Verif.Handles
import Verif.SpecHandles
import Verif.Lemmas.Handles
import Verif.Props.Handles
import Verif.Slices
import Verif.SpecSlices
import Verif.Lemmas.Slices
import Verif.Props.Slices
import Verif.SpecSpace
import Verif.Lemmas.Space
import Verif.Props.Space
import Verif.Props.Pad
import Verif.Props.Legal
import Verif.Props.Indep
import Verif.SpecKept
import Verif.Lemmas.SaveRead
import Verif.Lemmas.SavedEls
import Verif.Props.Kept
import Verif.Lemmas.DrawRead
import Verif.Lemmas.DrawFull
import Verif.Lemmas.SavedNums
import Verif.Props.Drawing
import Verif.Cli
import Verif.Props.Cli
import Verif.Props.Sessions
import Verif.Props.Decimal
import Verif.Props.Forms
import Verif.Props.Cut
import Verif.Props.Table
import Verif.Props.Picture
import Verif.Theme
import Verif.Lemmas.KeepTheme
import Verif.Lemmas.ThemeForms
import Verif.Props.Parts
import Verif.Lemmas.Alike
import Verif.Lemmas.Alike2
import Verif.Props.Names
import Verif.Props.Order
import Verif.Props.Shown
import Verif.Busy
import Verif.Props.Busy
import Verif.Props.Guarded
import Verif.Pointers
import Verif.Props.Pointers
import Verif.Props.Targets
import Verif.Props.Words
import Verif.Lemmas.CleanBase
import Verif.Lemmas.CleanParts
import Verif.Lemmas.CleanRec
import Verif.Lemmas.Owner
import Verif.Lemmas.Looks
import Verif.Props.Reopen
import Verif.Lemmas.CleanDoc
import Verif.Props.AnyText
import Verif.SpecAnySessions
import Verif.Props.AnySessions
import Verif.Props.Source
import Verif.Props.Autosave
import Verif.Props.Join
import Verif.Props.Pieces
import Verif.Props.Well
import Verif.Props.Tidy
import Verif.Props.JoinFiles
import Verif.Props.SplitFiles
import Verif.SpecThreads
import Verif.Lemmas.Rename
import Verif.Lemmas.RenameParse
import Verif.Lemmas.RenameWorld
import Verif.Lemmas.RenameStep
import Verif.Lemmas.Threads
import Verif.Props.Threads
import Verif.SpecTool
import Verif.Props.Tool
import Verif.SpecBuilt
import Verif.Lemmas.Built
import Verif.Props.Built
import Verif.SpecMakes
import Verif.Props.Makes
import Verif.Props.TextCut
import Verif.Props.Dress
import Verif.Props.Fits
import Verif.Props.Demo
import Verif.Props.Frames
import Verif.Props.DemoFrames
import Verif.Props.Printed
import Verif.Props.Bytes
import Verif.Props.Printable
import Verif.Props.Grid
import Verif.SpecPlace
import Verif.Props.MergeFile
import Verif.Reader
import Verif.SpecReader
import Verif.Props.Reader
import Verif.SpecApart
import Verif.Props.Apart
