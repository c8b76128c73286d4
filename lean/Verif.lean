import Verif.Base
import Verif.Props.AddReloc
import Verif.Props.AnyFile
import Verif.Props.Archive
import Verif.Props.BuildDelete
import Verif.Props.BuildRead
import Verif.Props.BuildSegment
import Verif.Props.BuildSize
import Verif.Props.BuildTable
import Verif.Props.BuildWrite
import Verif.Props.Bytes
import Verif.Props.CodeSign
import Verif.Props.Coff
import Verif.Props.CoffFile
import Verif.Props.CoffImport
import Verif.Props.CoffView
import Verif.Props.CoffWrite
import Verif.Props.DyldCache
import Verif.Props.DyldImage
import Verif.Props.DyldInfo
import Verif.Props.DyldReloc
import Verif.Props.ElfAttr
import Verif.Props.ElfFile
import Verif.Props.ElfHash
import Verif.Props.ElfHeader
import Verif.Props.ElfImport
import Verif.Props.ElfMisc
import Verif.Props.ElfReloc
import Verif.Props.ElfTables
import Verif.Props.ElfVersion
import Verif.Props.ElfView
import Verif.Props.ElfWrite
import Verif.Props.ElfWritten
import Verif.Props.Endian
import Verif.Props.ExportsTrie
import Verif.Props.FileKind
import Verif.Props.GnuProperty
import Verif.Props.Leb
import Verif.Props.MachOIter
import Verif.Props.MachoBuild
import Verif.Props.MachoBuildLayout
import Verif.Props.MachoBuildRead
import Verif.Props.MachoBuildWrite
import Verif.Props.MachoFat
import Verif.Props.MachoFile
import Verif.Props.MachoFixup
import Verif.Props.MachoImport
import Verif.Props.MachoReloc
import Verif.Props.MachoView
import Verif.Props.MachoWrite
import Verif.Props.Names
import Verif.Props.Note
import Verif.Props.Pe
import Verif.Props.PeFile
import Verif.Props.PeImport
import Verif.Props.PeReloc
import Verif.Props.PeResource
import Verif.Props.PeWriter
import Verif.Props.Pod
import Verif.Props.ReadCache
import Verif.Props.RelocMap
import Verif.Props.RelocationMap
import Verif.Props.Reserve
import Verif.Props.Rich
import Verif.Props.StrTab
import Verif.Props.SymbolMap
import Verif.Props.WriteObject
import Verif.Props.WriteObject2
import Verif.Props.XcoffFile
import Verif.Props.XcoffRead
import Verif.Props.XcoffView
import Verif.Props.XcoffWrite
