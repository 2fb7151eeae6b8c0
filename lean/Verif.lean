import Verif.Props.Ascii85
import Verif.Props.RunLength
import Verif.Props.Png
import Verif.Props.Lzw
import Verif.Props.Tokenizer
import Verif.Props.Lines
import Verif.Props.StackParser
import Verif.Props.Stream
import Verif.Props.Stream2
import Verif.Props.Document
import Verif.Props.Objstm
import Verif.Props.Encrypted
import Verif.Props.Chain
import Verif.Props.Recovery
import Verif.Props.Pages
import Verif.Props.Names
import Verif.Props.Geometry
import Verif.Props.Interp
import Verif.Props.TextLines
import Verif.Props.Show
import Verif.Props.Layout
import Verif.Props.Run
import Verif.Props.Lists
import Verif.Props.Plane
import Verif.Props.Bmp
import Verif.Props.Text
import Verif.Props.Security
import Verif.Props.Paths
import Verif.Props.Json
import Verif.Props.Xml
import Verif.Props.ConvJson
import Verif.Props.ConvXml
import Verif.Props.Encoding
import Verif.Props.EncodingTables
import Verif.Props.Widths
import Verif.Props.CMap
import Verif.Props.ToUnicode

import Verif.Props.Type1
import Verif.Props.Fonts
import Verif.Props.Content
import Verif.Props.Ccitt
import Verif.Props.Filters
import Verif.Props.Yaml
import Verif.Props.ConvYaml
import Verif.Model.ConvHtml
import Verif.Spec.ConvHtml
import Verif.Props.ConvHtml
import Verif.Spec.Extract
import Verif.Props.Extract
import Verif.Spec.WellFormed
import Verif.Props.WellFormed
import Verif.Model.Pipeline
import Verif.Spec.Pipeline
import Verif.Props.Pipeline
import Verif.Spec.Write
import Verif.Props.Write
import Verif.Spec.TextFile
import Verif.Props.TextFile
import Verif.Model.Handler
import Verif.Spec.EncryptedFile
import Verif.Spec.LockedWrite
import Verif.Props.EncryptedFile
import Verif.Props.LockedWrite
import Verif.Spec.UniFile
import Verif.Props.UniFile
import Verif.Model.Outputs
import Verif.Spec.Outputs
import Verif.Props.Outputs
import Verif.Props.WrittenPages
import Verif.Spec.Provenance
import Verif.Props.Provenance
import Verif.Spec.WrittenLines
import Verif.Props.WrittenLines
import Verif.Spec.Failure
import Verif.Props.Failure
import Verif.Model.HtmlCut
import Verif.Spec.HtmlCut
import Verif.Props.HtmlCut
import Verif.Model.Cff
import Verif.Spec.Cff
import Verif.Props.Cff
import Verif.Model.ConvertFile
import Verif.Spec.ConvertFile
import Verif.Props.ConvertFile
import Verif.Model.TrueType
import Verif.Spec.TrueType
import Verif.Props.TrueType
import Verif.Model.SaveImage
import Verif.Spec.SaveImage
import Verif.Props.SaveImage
import Verif.Model.CmapDb
import Verif.Spec.CmapDb
import Verif.Props.CmapDb
import Verif.Spec.Drawing
import Verif.Props.Drawing
import Verif.Props.DrawingFile
import Verif.Model.Cli
import Verif.Spec.Cli
import Verif.Props.Cli
import Verif.Model.Utilities
import Verif.Spec.Utilities
import Verif.Props.Utilities
import Verif.Model.AttrNames
import Verif.Spec.AttrNames
import Verif.Props.AttrNames
import Verif.Model.Dumps
import Verif.Spec.Dumps
import Verif.Props.Dumps
import Verif.Spec.SameObjects
import Verif.Props.SameObjects
import Verif.Spec.PackedWrite
import Verif.Props.PackedWrite
import Verif.Spec.Updates
import Verif.Props.Updates
import Verif.Model.SaveAll
import Verif.Spec.SaveAll
import Verif.Props.SaveAll
import Verif.Spec.FontExtent
import Verif.Props.FontExtent
import Verif.Spec.DrawingJson
import Verif.Props.DrawingJson
import Verif.Spec.DrawingXml
import Verif.Props.DrawingXml
import Verif.Spec.DrawingYaml
import Verif.Props.DrawingYaml
import Verif.Spec.DrawingHtml
import Verif.Props.DrawingHtml
