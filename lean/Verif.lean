import Verif.Py
import Verif.Vec
import Verif.VecLemmas
import Verif.Voxel
import Verif.VoxelLemmas
import Verif.Spec.Octree
import Verif.OctreeLemmas
import Verif.Props.Vec
import Verif.Props.Voxel
import Verif.Props.Octree
import Verif.Bytes
import Verif.BytesLemmas
import Verif.F32Lemmas
import Verif.MapFile
import Verif.Spec.Cube
import Verif.CubeLemmas
import Verif.ReaderLemmas
import Verif.Spec.MapFile
import Verif.EntLemmas
import Verif.MapLemmas
import Verif.MapReadLemmas
import Verif.Entities
import Verif.Props.Bytes
import Verif.Props.Cube
import Verif.Props.Ent
import Verif.Props.MapFile
import Verif.Props.MapReader
import Verif.Props.MapRewrite
import Verif.Spec.Pipeline
import Verif.Pipeline
import Verif.PipelineLemmas
import Verif.Props.Pipeline
import Verif.Dict
import Verif.Props.Dict
import Verif.Upm
import Verif.UpmLemmas
import Verif.Rooms
import Verif.PlaceLemmas
import Verif.Props.Upm
import Verif.Props.Choice
import Verif.Props.Place
import Verif.ModelRooms
import Verif.RoomLemmas
import Verif.Props.Rooms
import Verif.Props.Mirror
import Verif.Props.Endcap
import Verif.Kit
import Verif.KitLemmas
import Verif.Props.Kit
import Verif.Render
import Verif.RenderLemmas
import Verif.Lights
import Verif.Props.Render
import Verif.Props.Lights
import Verif.After
import Verif.Props.After
import Verif.Textures
import Verif.TextureData
import Verif.Themes
import Verif.Props.Textures
import Verif.Props.Themes
import Verif.Vox
import Verif.VoxLemmas
import Verif.Dist
import Verif.DistData
import Verif.Faces
import Verif.Props.Dist
import Verif.Props.Faces
import Verif.Cli
import Verif.Props.Cli
import Verif.Props.Vox
import Verif.Terrain
import Verif.Props.Terrain
import Verif.ModelExtra
import Verif.Props.ModelExtra
import Verif.Props.ModelColours
import Verif.Props.Cells
import Verif.MagicaRun
import Verif.Props.MagicaRun
import Verif.Props.MagicaSaved
import Verif.Round64
import Verif.Stream64
import Verif.Hue
import Verif.Props.Stream64
import Verif.Props.Hue
import Verif.Spec.Conf
import Verif.Props.Conf
import Verif.Save
import Verif.Props.Save
import Verif.Info
import Verif.Props.Info
import Verif.Json
import Verif.Spec.Json
import Verif.Props.Json
import Verif.DebugRun
import Verif.CopyData
import Verif.EmbedLemmas
import Verif.Props.Debug
import Verif.Props.RoomTest
import Verif.Props.Copy
import Verif.Iso
import Verif.IsoLemmas
import Verif.Props.Iso
import Verif.Props.RunVox
import Verif.IVec
import Verif.Props.IVec
import Verif.Skybox
import Verif.Props.Skybox
import Verif.FromJson
import Verif.Props.FromJson
import Verif.JsonText
import Verif.Props.JsonText
import Verif.Outputs
import Verif.Props.Outputs
import Verif.Props.Fair
import Verif.Props.Connect
import Verif.Props.Holes
import Verif.VoxData
import Verif.Shipped
import Verif.ShippedLemmas
import Verif.Props.Shipped
import Verif.Openings
import Verif.Props.Openings
import Verif.EntTables
import Verif.Props.Starts
import Verif.Props.Export
import Verif.Props.Again
import Verif.Props.Game
import Verif.Props.Small
import Verif.FloatRot
import Verif.Props.FloatRot
import Verif.FootData
import Verif.FootTables
import Verif.Props.Foot
import Verif.Props.DumpRun
import Verif.RoomTestFiles
import Verif.Props.SavedWorld
import Verif.Props.TestFiles
import Verif.OldTools
import Verif.Props.OldTools
import Verif.Props.VectorAngle
import Verif.Choice64
import Verif.TapeLemmas
import Verif.Props.Choice64
import Verif.Props.Nearest32
import Verif.Props.ReadSize
import Verif.Props.FileSize
import Verif.Props.FileSizeRun
import Verif.Props.EntBytes
import Verif.Props.RunBounds
import Verif.Line
import Verif.Props.Line
import Verif.Props.Flavours
import Verif.Session
import Verif.Props.Session
import Verif.VecSeq
import Verif.Props.VecSeq
import Verif.Sample
import Verif.Props.StreamShare
import Verif.After64
import Verif.Props.After64
import Verif.Terrain64
import Verif.Props.Terrain64
import Verif.IsoFile
import Verif.ResumeLemmas
import Verif.Props.IsoFile
import Verif.Props.FairEnts
import Verif.ResizeLemmas
import Verif.Props.Resize
import Verif.Props.Balance
import Verif.Zipped
import Verif.Props.Zipped
import Verif.Limit
import Verif.Props.Limit
import Verif.Jobs
import Verif.Props.Jobs
import Verif.CopyRace
import Verif.Props.CopyRace
import Verif.VoxAsk
import Verif.Props.VoxCut
import Verif.Props.MoreRooms
import Verif.Props.MoreRoomsFloat
import Verif.Props.RunCap
import Verif.Props.DebugSaved
import Verif.Spec.AnySize
import Verif.Props.AnySize
import Verif.Props.AnySizeFile
import Verif.Props.AnySizeRun
import Verif.Props.AnySizeCount
import Verif.OctCost
import Verif.Props.OctCost
import Verif.DirRace
import Verif.Props.DirRace
import Verif.Props.AnyAngle
import Verif.Props.Snow64
import Verif.Props.Planting64
import Verif.Props.EqualWays
import Verif.Props.OwnDraw
import Verif.Props.Hues
import Verif.Props.HueNear
import Verif.Props.Chances
import Verif.Props.FlagChance
import Verif.Props.PoleLight
import Verif.Props.FreeEnts
import Verif.Props.StandEnts
