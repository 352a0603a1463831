import Verif.Props.Hash
import Verif.Props.Search
import Verif.Props.ObjectGroup
import Verif.Props.ObjectIterator
import Verif.Props.WriteBuffer
import Verif.Props.StackAlloc
import Verif.Props.CArray
import Verif.Props.Arguments
import Verif.Props.Types
import Verif.Props.FileUtils
import Verif.Props.Merge
import Verif.Props.TextDB
import Verif.Props.BinDB
import Verif.Props.Reloc
import Verif.Props.Layout
import Verif.Props.Export
import Verif.Props.Export2
import Verif.Props.ExportSample
import Verif.Props.JSONLexer
import Verif.Props.JSONNum
import Verif.Proofs.JSONSkip
import Verif.Proofs.JSONEnum
import Verif.Proofs.JSONClass
import Verif.Proofs.JSONLocal
import Verif.Props.JSON
import Verif.Proofs.JSONSound
import Verif.Proofs.JSONParse
import Verif.Props.JSONReject
import Verif.Proofs.JSONParams
import Verif.Props.JSONParams
import Verif.Model.VBin
import Verif.Model.VBinSpec
import Verif.Proofs.VBinSave
import Verif.Proofs.VBinLoad
import Verif.Proofs.VBinRound
import Verif.Proofs.VBinDict
import Verif.Proofs.VBinCont
import Verif.Proofs.VBinClass
import Verif.Proofs.VBinEqual
import Verif.Proofs.VBinTerm
import Verif.Props.VBin
import Verif.Model.AttributeSpec
import Verif.Model.AttributeParser
import Verif.Proofs.AttributeParser
import Verif.Proofs.AttributeItems
import Verif.Props.AttributeParser
import Verif.Props.JSONNumbers
import Verif.Model.FieldVisitor
import Verif.Model.FieldVisitorSpec
import Verif.Proofs.FieldVisitor
import Verif.Props.FieldVisitor
import Verif.Model.ParamCache
import Verif.Proofs.ParamCache
import Verif.Props.ParamCache
import Verif.Model.CodeGen
import Verif.Model.CodeGenSpec
import Verif.Proofs.CodeGenFile
import Verif.Props.CodeGenFile
import Verif.Proofs.CodeGen
import Verif.Proofs.CodeGenTree
import Verif.Proofs.CodeGenRead
import Verif.Props.CodeGen
import Verif.Props.Scan
import Verif.Model.MapFile
import Verif.Model.MapFileSpec
import Verif.Proofs.MapFile
import Verif.Proofs.MapFileGcc
import Verif.Proofs.MapFileName
import Verif.Proofs.MapFileTemplate
import Verif.Props.MapFile
import Verif.Props.MapFileName
import Verif.Model.ScanTypes
import Verif.Props.ScanTypesSpec
import Verif.Proofs.ScanTypes
import Verif.Proofs.ScanTypesRank
import Verif.Proofs.ScanFunctions
import Verif.Props.ScanTypes
import Verif.Model.CodeGenTypes
import Verif.Model.CodeGenTypesSpec
import Verif.Proofs.CodeGenTypes
import Verif.Props.CodeGenTypes
import Verif.Model.Tools
import Verif.Proofs.MergeStorable
import Verif.Props.Tools
import Verif.Model.ExportTool
import Verif.Props.Pipeline
import Verif.Model.BuildDB
import Verif.Model.BuildSpec
import Verif.Proofs.BuildDB
import Verif.Props.BuildDB
import Verif.Model.Iterator
import Verif.Props.Iterator
import Verif.Props.Logging
import Verif.Props.Module
import Verif.Props.Call
import Verif.Props.ScanTool
import Verif.Props.Runtime
import Verif.Props.MapFiles
import Verif.Props.Image
import Verif.Props.ImageSample
import Verif.Proofs.Link
import Verif.Proofs.Link2
import Verif.Model.ImagePlan
import Verif.Proofs.Plan
import Verif.Proofs.Plan2
import Verif.Proofs.Plan3
import Verif.Proofs.Plan4
import Verif.Proofs.Plan5
import Verif.Model.ExportFile
import Verif.Props.ExportFile
import Verif.Props.EndToEnd
import Verif.Props.EndToEndDetails
import Verif.Props.Contents
import Verif.Proofs.Export9
import Verif.Proofs.Export10
import Verif.Props.ExportLinks
import Verif.Props.ExportLinksSample
import Verif.Model.ExportMap
import Verif.Model.MapItemsSpec
import Verif.Proofs.MapItems
import Verif.Props.MapLoaded
import Verif.Props.MapLoadedSample
import Verif.Model.ScanUnit
import Verif.Props.ScanUnitSpec
import Verif.Proofs.ScanUnit
import Verif.Proofs.ScanUnitRuns
import Verif.Proofs.ScanUnitStep
import Verif.Proofs.ScanUnitUsed
import Verif.Proofs.ScanUnitFold
import Verif.Proofs.ScanUnitTotal
import Verif.Props.ScanUnit
import Verif.Model.ScanStore
import Verif.Props.ScanStoreSpec
import Verif.Proofs.ScanStore
import Verif.Props.ScanRecordsSpec
import Verif.Proofs.ScanRecords
import Verif.Props.SourceSpec
import Verif.Proofs.Source
import Verif.Props.Source
import Verif.Props.SourceExample
import Verif.Model.ExportLog
import Verif.Props.ExportLogSpec
import Verif.Proofs.ExportLog
import Verif.Props.ExportLog
import Verif.Props.JSONInsideSpec
import Verif.Proofs.JSONInside
import Verif.Props.JSONInside
import Verif.Props.VBinInsideSpec
import Verif.Proofs.VBinInside
import Verif.Props.VBinInside
import Verif.Props.JSONConvertSpec
import Verif.Proofs.JSONConvert
import Verif.Props.JSONConvert
import Verif.Props.JSONErrorSpec
import Verif.Proofs.JSONError
import Verif.Props.JSONError
import Verif.Props.JSONTextSpec
import Verif.Proofs.JSONText
import Verif.Props.JSONText
import Verif.Props.VBinBytesSpec
import Verif.Proofs.VBinBytes
import Verif.Props.VBinBytes
import Verif.Model.ObjectLife
import Verif.Props.ObjectLifeSpec
import Verif.Proofs.ObjectLife
import Verif.Props.ObjectLife
import Verif.Model.VBinCustom
import Verif.Props.VBinCustomSpec
import Verif.Proofs.VBinCustom
import Verif.Props.VBinCustom
import Verif.Model.JSONHooks
import Verif.Props.JSONHooksSpec
import Verif.Proofs.JSONHooks
import Verif.Proofs.JSONHooksAgree
import Verif.Proofs.JSONHooksLoad
import Verif.Props.JSONHooks
import Verif.Model.JSONSaveHooks
import Verif.Props.JSONSaveHooksSpec
import Verif.Proofs.JSONSaveHooks
import Verif.Proofs.JSONSaveHooksRound
import Verif.Props.JSONSaveHooks
import Verif.Model.VBinHooks
import Verif.Props.VBinHooksSpec
import Verif.Proofs.VBinHooks
import Verif.Props.VBinHooks
import Verif.Props.VBinHooksVerSpec
import Verif.Proofs.VBinHooksVer
import Verif.Props.VBinHooksVer
