import Verif.Checksum.Props
import Verif.Pixel.Props
import Verif.Comp.Props
import Verif.Qoi.Props
import Verif.Png.Props
import Verif.IntOps.Props
import Verif.Algo.Search
import Verif.Algo.Sort
import Verif.Unicode.Props
import Verif.Arr.Props
import Verif.RefCount.Props
import Verif.Publish.Props
import Verif.UniqueId.Props
import Verif.Thread.Props
import Verif.ThreadPool.Props
import Verif.Worker.Props
import Verif.Worker.Queue
import Verif.HashMap.Props
import Verif.Random.Props
import Verif.BitOps.Props
import Verif.ZeroAlloc.Props
import Verif.List2.Props
import Verif.Matrix.Props
import Verif.SaveRestore.Examples
import Verif.Pattern.Props
import Verif.Pattern.Affine
import Verif.CompOp.Props
import Verif.Str.Props
import Verif.BitArr.Props
import Verif.BitSet.Props
import Verif.Gradient.Props
import Verif.GradLut.Props
import Verif.FontTag.Props
import Verif.Variation.Props
import Verif.Feature.Props
import Verif.ArenaTree.Props
import Verif.Deflate.Props
import Verif.Deflate.Inflate
import Verif.CMap.Props
import Verif.Path.Props
import Verif.Path.Shapes
import Verif.Fill.Props
import Verif.FillMask.Props
import Verif.Raster.Props
import Verif.Draw.Props
import Verif.Async.Props
import Verif.PixConv.Indexed
import Verif.Bmp.Roundtrip
import Verif.Kern.Safe
import Verif.GlyphBuffer.Examples
import Verif.Glyf.Examples
import Verif.FaceMetrics.Examples
import Verif.FontData.Examples
import Verif.VarNum.Examples
import Verif.NameTable.Examples
import Verif.Arena.Examples
import Verif.Arena.Pool
