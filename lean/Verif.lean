import Verif.Props.Integer
import Verif.Props.Containers
import Verif.Props.Patch
import Verif.Props.Search
import Verif.Props.Sort
import Verif.Props.Scan
import Verif.Props.Bitonic
import Verif.Props.Field
import Verif.Props.Split
import Verif.Props.Morton
import Verif.Props.MortonCell
import Verif.Props.Karras
import Verif.Props.TreeOps
import Verif.Props.Traversal
import Verif.Props.Reduction
import Verif.Props.PatchTree
import Verif.Props.Events
import Verif.Props.Box
import Verif.Props.Str
import Verif.Props.ByteStream
import Verif.Props.Fortran
import Verif.Props.Serialize
import Verif.Props.PhantomDump
import Verif.Props.LoadBalance
import Verif.Props.ChangeList
import Verif.Props.Collective
import Verif.Props.SparseExchange
import Verif.Props.SparseComm
import Verif.Props.SparseXchg
import Verif.Props.SerialTree
import Verif.Props.Hilbert
import Verif.Props.LayerSerial
import Verif.Props.Reattribute
import Verif.Props.Gather
import Verif.Props.Push
import Verif.Props.Sched
import Verif.Props.SchedEx
import Verif.Props.SchedCodec
import Verif.Props.Dump
import Verif.Props.DumpEx
import Verif.Props.BVH
import Verif.Props.Radix
import Verif.Props.DTT
import Verif.Props.NeighCache
import Verif.Props.CacheHandler
import Verif.Props.SphGhost
import Verif.Props.SphGhostGeom
import Verif.Props.SphGhostEx
import Verif.Props.Amr
import Verif.Props.AmrEx
import Verif.Props.AmrGraph
import Verif.Props.Fv
import Verif.Props.AmrGhost
import Verif.Props.AmrGhostEx
import Verif.Props.FvSlope
import Verif.Props.FvGrid
import Verif.Props.SphForce
import Verif.Props.SphForceEx
import Verif.Props.SphSink
import Verif.Props.SphSinkEx
import Verif.Props.SphKernel
import Verif.Props.SphSmooth
import Verif.Props.SphSmoothEx
import Verif.Props.Setup
import Verif.Props.SetupEx
import Verif.Props.Lattice
import Verif.Props.BalLoad
import Verif.Props.BalLoadEx
import Verif.Props.Scan6
import Verif.Props.PushAll
import Verif.Props.PushAllEx
import Verif.Props.Fmm
import Verif.Props.SelfGrav
import Verif.Props.SelfGravMM
import Verif.Props.SelfGravDirect
import Verif.Props.DustDrag
import Verif.Props.MatExp
import Verif.Props.DustExpo
import Verif.Props.Paving
