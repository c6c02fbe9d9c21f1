import Verif.Base.Bytes
import Verif.Base.Result
import Verif.Model.Stream
import Verif.Lemmas.Stream
import Verif.Lemmas.Times
import Verif.Lemmas.Line
import Verif.Model.StreamMem
import Verif.Model.StreamTypes
import Verif.Spec.File
import Verif.Lemmas.StreamMem
import Verif.Props.StreamMem
import Verif.Props.Stream
import Verif.Model.Chunk
import Verif.Lemmas.Chunk
import Verif.Spec.Chunk
import Verif.Props.Chunk
import Verif.Model.Zipped
import Verif.Spec.Zipped
import Verif.Lemmas.Zipped
import Verif.Props.Zipped
import Verif.Base.Text
import Verif.Model.Archive
import Verif.Model.ArchiveBinary
import Verif.Model.ArchiveBinsafe
import Verif.Spec.Archive
import Verif.Lemmas.Archive
import Verif.Lemmas.ArchiveBinary
import Verif.Lemmas.ArchiveBinsafe
import Verif.Props.ArchiveBinary
import Verif.Model.ArchiveHeader
import Verif.Lemmas.ArchiveBinsafeSkip
import Verif.Lemmas.ArchiveHeader
import Verif.Props.ArchiveBinsafe
import Verif.Props.ArchiveHeader
import Verif.Base.Float
import Verif.Model.ArchiveAscii
import Verif.Lemmas.ArchiveAscii
import Verif.Props.ArchiveAscii
import Verif.Model.Vfs
import Verif.Spec.Vfs
import Verif.Lemmas.Vfs
import Verif.Lemmas.VfsPath
import Verif.Lemmas.VfsTree
import Verif.Props.Vfs
import Verif.Model.VfsDisk
import Verif.Spec.VfsDisk
import Verif.Lemmas.VfsDisk
import Verif.Lemmas.VfsDiskLoad
import Verif.Lemmas.VfsDiskInv
import Verif.Lemmas.VfsDiskRound
import Verif.Model.VfsHost
import Verif.Spec.VfsHost
import Verif.Lemmas.VfsHost
import Verif.Props.VfsDisk
import Verif.Props.VfsHost
import Verif.Props.VfsMemory
import Verif.Model.VfsTime
import Verif.Spec.VfsTime
import Verif.Lemmas.VfsTime
import Verif.Props.VfsTime
import Verif.Model.Daedalus
import Verif.Model.DaedalusVm
import Verif.Spec.Daedalus
import Verif.Lemmas.DaedalusVm
import Verif.Lemmas.DaedalusCode
import Verif.Lemmas.DaedalusOps
import Verif.Lemmas.DaedalusStack
import Verif.Lemmas.DaedalusExec
import Verif.Props.Daedalus
import Verif.Spec.DaedalusCall
import Verif.Lemmas.DaedalusKeep
import Verif.Lemmas.DaedalusCall
import Verif.Lemmas.DaedalusEff
import Verif.Lemmas.DaedalusFlow
import Verif.Lemmas.DaedalusRaise
import Verif.Props.DaedalusApi
import Verif.Props.DaedalusCall
import Verif.Props.DaedalusExternal
import Verif.Spec.DaedalusString
import Verif.Lemmas.DaedalusString
import Verif.Props.DaedalusString
import Verif.Spec.DaedalusStore
import Verif.Lemmas.DaedalusStore
import Verif.Props.DaedalusStore
import Verif.Spec.DaedalusConst
import Verif.Lemmas.DaedalusConst
import Verif.Props.DaedalusConst
import Verif.Spec.DaedalusLayout
import Verif.Lemmas.DaedalusLayout
import Verif.Props.DaedalusLayout
import Verif.Spec.DaedalusLocals
import Verif.Lemmas.DaedalusLocals
import Verif.Lemmas.DaedalusArgs
import Verif.Props.DaedalusLocals
import Verif.Model.Texture
import Verif.Spec.Texture
import Verif.Lemmas.Texture
import Verif.Props.Texture
import Verif.Lemmas.Chunked
import Verif.Model.Boxes
import Verif.Lemmas.Boxes
import Verif.Props.Boxes
import Verif.Model.Font
import Verif.Model.ModelHierarchy
import Verif.Lemmas.Font
import Verif.Props.Font
import Verif.Model.Logger
import Verif.Props.Logger
import Verif.Model.Bsp
import Verif.Spec.Bsp
import Verif.Lemmas.Bsp
import Verif.Props.Bsp
import Verif.Model.Mesh
import Verif.Spec.Mesh
import Verif.Lemmas.Mesh
import Verif.Props.Mesh
import Verif.Props.Cutscene
import Verif.Props.ArchiveClasses
import Verif.Props.ArchiveGraph
import Verif.Props.WayNet
import Verif.Props.VobTree
import Verif.Props.Mds
import Verif.Props.MdsParser
import Verif.Props.MdsBinary
import Verif.Props.Dds
import Verif.Props.VfsDescriptor
import Verif.Props.Objects
import Verif.Props.ObjLight
import Verif.Props.DaedalusLoad
import Verif.Model.Mrm
import Verif.Model.SoftSkin
import Verif.Model.ModelMesh
import Verif.Model.MorphMesh
import Verif.Model.ModelAnimation
import Verif.Spec.Meshes
import Verif.Lemmas.Segments
import Verif.Lemmas.Mrm
import Verif.Lemmas.Meshes
import Verif.Lemmas.MeshSave
import Verif.Lemmas.Safe
import Verif.Props.Meshes
import Verif.Model.Materials
import Verif.Model.WholeMesh
import Verif.Spec.Materials
import Verif.Spec.WholeMesh
import Verif.Lemmas.Materials
import Verif.Lemmas.WholeMesh
import Verif.Props.Materials
import Verif.Props.WholeMesh
import Verif.Model.SaveGame
import Verif.Spec.SaveGame
import Verif.Lemmas.SaveGame
import Verif.Props.SaveGame
import Verif.Model.World
import Verif.Spec.World
import Verif.Lemmas.ArchiveSections
import Verif.Lemmas.World
import Verif.Props.World
import Verif.Spec.Level
import Verif.Lemmas.Level
import Verif.Lemmas.WorldPlain
import Verif.Props.Level
import Verif.Model.DaedalusMember
import Verif.Spec.DaedalusMember
import Verif.Lemmas.DaedalusMember
import Verif.Props.DaedalusMember
import Verif.Model.ScriptClasses
import Verif.Spec.ScriptClasses
import Verif.Lemmas.ScriptClasses
import Verif.Lemmas.ScriptClassesAny
import Verif.Props.ScriptClasses
import Verif.Model.StreamIo
import Verif.Spec.StreamIo
import Verif.Lemmas.StreamIo
import Verif.Lemmas.StreamIoLines
import Verif.Lemmas.StreamIoTie
import Verif.Props.StreamIo
import Verif.Model.CutsceneMessage
import Verif.Spec.CutsceneMessage
import Verif.Lemmas.CutsceneMessage
import Verif.Props.CutsceneMessage
import Verif.Props.Damaged
import Verif.Model.DaedalusStart
import Verif.Spec.DaedalusMemory
import Verif.Lemmas.DaedalusMemory
import Verif.Lemmas.DaedalusMemoryCall
import Verif.Lemmas.DaedalusMemoryExec
import Verif.Lemmas.DaedalusMemoryHost
import Verif.Lemmas.DaedalusMemoryLoad
import Verif.Props.DaedalusMemory
import Verif.Spec.Chunks
import Verif.Lemmas.MeshSaved
import Verif.Lemmas.ForeignChunks
import Verif.Props.ForeignChunks
import Verif.Spec.ChunkOrder
import Verif.Lemmas.ChunkOrder
import Verif.Lemmas.ChunkForms
import Verif.Props.ChunkOrder
import Verif.Model.Indexing
import Verif.Spec.Indexing
import Verif.Props.Indexing
import Verif.Model.DaedalusReport
import Verif.Spec.DaedalusReport
import Verif.Lemmas.DaedalusReport
import Verif.Props.DaedalusReport
import Verif.Spec.DaedalusDamage
import Verif.Lemmas.DaedalusDamage
import Verif.Props.DaedalusDamage
import Verif.Lemmas.Reload
import Verif.Lemmas.ReloadMaterials
import Verif.Lemmas.ReloadBsp
import Verif.Lemmas.ReloadMesh
import Verif.Props.Reload
import Verif.Spec.VfsCopy
import Verif.Lemmas.VfsCopy
import Verif.Props.VfsCopy
import Verif.Spec.ZippedDamage
import Verif.Lemmas.ZippedDamage
import Verif.Spec.DaedalusDefault
import Verif.Lemmas.DaedalusDefault
import Verif.Props.DaedalusDefault
import Verif.Props.DaedalusLenient
import Verif.Lemmas.MdsDamage
import Verif.Props.MdsDamage
import Verif.Spec.Used
import Verif.Lemmas.Used
import Verif.Props.Used
import Verif.Model.DaedalusFlags
import Verif.Spec.DaedalusTrap
import Verif.Lemmas.DaedalusTrap
import Verif.Props.DaedalusTrap
import Verif.Spec.DaedalusEnds
import Verif.Lemmas.DaedalusEnds
import Verif.Props.DaedalusEnds
import Verif.Spec.VfsDiskEnds
import Verif.Lemmas.VfsDiskEnds
import Verif.Props.VfsDiskEnds
import Verif.Spec.VfsSeen
import Verif.Lemmas.VfsSeen
import Verif.Props.VfsSeen
import Verif.Model.DaedalusLook
import Verif.Spec.DaedalusLook
import Verif.Lemmas.DaedalusLook
import Verif.Lemmas.DaedalusRoom
import Verif.Props.DaedalusLook
import Verif.Spec.Behind
import Verif.Lemmas.Behind
import Verif.Lemmas.BehindArchive
import Verif.Props.Behind
import Verif.Model.InfoChoices
import Verif.Props.InfoChoices
import Verif.Lemmas.ZeroFill
import Verif.Props.ZeroFill
import Verif.Spec.Compare
import Verif.Model.Compare
import Verif.Lemmas.Compare
import Verif.Props.Compare
import Verif.Spec.AnimationFlags
import Verif.Model.AnimationFlags
import Verif.Lemmas.AnimationFlags
import Verif.Props.AnimationFlags
