import Verif.Props.Alu
import Verif.Props.Decode
import Verif.Props.DecodeLegal
import Verif.Props.RefAlu
import Verif.Props.Idu
import Verif.Props.Ren
import Verif.Props.Rob
import Verif.Props.PreIdu
import Verif.Props.IssueQueue
import Verif.Props.Dispatch
import Verif.Props.Exu
import Verif.Props.Wake
import Verif.Props.Prf
import Verif.Props.Csr
import Verif.Props.Base
import Verif.Props.PhysMem
import Verif.Props.RefMem
import Verif.Props.RefMmu
import Verif.Spec.MemOrder
import Verif.Spec.DeviceMap
import Verif.Model.Lsu
import Verif.Model.LsuSys
import Verif.Proofs.LsuBytes
import Verif.Proofs.Lsu
import Verif.Proofs.LsuInv
import Verif.Proofs.LsuLoad
import Verif.Proofs.LsuCommit
import Verif.Proofs.LsuReach
import Verif.Proofs.LsuRun
import Verif.Props.Lsu
import Verif.Model.Dcache
import Verif.Model.DcacheSys
import Verif.Proofs.DcacheBits
import Verif.Proofs.DcacheWb
import Verif.Proofs.DcacheMshr
import Verif.Proofs.DcacheStage
import Verif.Proofs.DcacheCore
import Verif.Proofs.DcacheInv
import Verif.Proofs.DcacheView
import Verif.Proofs.DcacheStep
import Verif.Proofs.DcacheKeep
import Verif.Proofs.DcacheAxi
import Verif.Proofs.DcacheReach
import Verif.Spec.CacheMem
import Verif.Proofs.DcacheFlat
import Verif.Props.Dcache
import Verif.Model.MemRoute
import Verif.Props.MemRoute
import Verif.Model.Ptw
import Verif.Model.Tlb
import Verif.Model.Mmu
import Verif.Proofs.TlbSpec
import Verif.Proofs.TlbLane
import Verif.Proofs.PtwInv
import Verif.Proofs.MmuInv
import Verif.Proofs.MmuRank
import Verif.Props.Mmu
import Verif.Model.Front
import Verif.Spec.FetchStream
import Verif.Proofs.FrontQueue
import Verif.Proofs.FrontStep
import Verif.Proofs.Front
import Verif.Proofs.Predecode
import Verif.Props.Front
import Verif.Props.Jal
import Verif.Model.ICache
import Verif.Model.ICacheSys
import Verif.Model.FetchSys
import Verif.Spec.FetchMem
import Verif.Spec.FetchRun
import Verif.Proofs.ICacheCall
import Verif.Proofs.ICacheCtl
import Verif.Proofs.ICacheWent
import Verif.Proofs.ICacheData
import Verif.Proofs.ICacheGood
import Verif.Proofs.ICacheInv
import Verif.Proofs.ICacheWait
import Verif.Props.ICache
import Verif.Props.Fetch
import Verif.Model.Zfinx
import Verif.Model.RefCpu
import Verif.Model.Difftest
import Verif.Spec.RefStep
import Verif.Spec.FpSpec
import Verif.Spec.DifftestSpec
import Verif.Proofs.RefTrap
import Verif.Proofs.RefExec
import Verif.Proofs.Fp
import Verif.Props.RefTrap
import Verif.Props.RefCsr
import Verif.Props.Zfinx
import Verif.Props.Difftest
import Verif.Model.Device
import Verif.Model.MmioPort
import Verif.Spec.DeviceSpec
import Verif.Spec.MmioSpec
import Verif.Proofs.Device
import Verif.Proofs.MmioPort
import Verif.Props.Device
import Verif.Props.MmioPort
import Verif.Spec.CoreFlow
import Verif.Proofs.CoreFlow
import Verif.Props.CoreFlow
import Verif.Spec.CoreRef
import Verif.Proofs.CoreRef
import Verif.Props.CoreRef
import Verif.Model.Bpu
import Verif.Spec.Bpu
import Verif.Proofs.BpuHist
import Verif.Proofs.BpuState
import Verif.Proofs.BpuBank
import Verif.Proofs.BpuRun
import Verif.Props.Bpu
import Verif.Model.BpuTab
import Verif.Model.BpuSys
import Verif.Spec.BpuTab
import Verif.Spec.BpuSys
import Verif.Proofs.Assoc
import Verif.Proofs.BpuType
import Verif.Proofs.BpuKey
import Verif.Proofs.BpuBtb
import Verif.Proofs.BpuSys
import Verif.Props.BpuTab
import Verif.Model.Tage
import Verif.Spec.Tage
import Verif.Proofs.Tage
import Verif.Proofs.TageInv
import Verif.Proofs.TageAge
import Verif.Props.Tage
import Verif.Spec.SysRef
import Verif.Proofs.SysRun
import Verif.Proofs.SysMem
import Verif.Proofs.SysStep
import Verif.Proofs.SysPriv
import Verif.Proofs.SysTrap
import Verif.Props.SysRef
import Verif.Spec.Spine
import Verif.Proofs.SpineLib
import Verif.Proofs.Spine
import Verif.Proofs.SpineStep
import Verif.Proofs.SpineRun
import Verif.Proofs.SpineLink
import Verif.Proofs.SpineKeep
import Verif.Props.Spine
import Verif.Model.Driver
import Verif.Spec.Driver
import Verif.Props.Driver
import Verif.Model.Restore
import Verif.Spec.Restore
import Verif.Proofs.Restore
import Verif.Props.Restore
import Verif.Spec.Whole
import Verif.Spec.WholeRef
import Verif.Proofs.WholeLib
import Verif.Proofs.WholeStep
import Verif.Proofs.WholeSim
import Verif.Proofs.WholeValid
import Verif.Proofs.WholeKeep
import Verif.Proofs.Whole
import Verif.Proofs.WholeRun
import Verif.Props.Whole
import Verif.Model.HandOff
import Verif.Spec.HandOff
import Verif.Proofs.HandOffPath
import Verif.Proofs.HandOff
import Verif.Props.HandOff
import Verif.Props.Training
import Verif.Model.MemTop
import Verif.Proofs.MemTopLsu
import Verif.Proofs.MemTopCalm
import Verif.Proofs.MemTopCache
import Verif.Proofs.MemTop
import Verif.Proofs.MemTopRun
import Verif.Props.MemTop
import Verif.Model.LsuList
import Verif.Proofs.LsuList
import Verif.Proofs.LsuListStep
import Verif.Proofs.LsuListStep2
import Verif.Proofs.LsuListCycle
import Verif.Proofs.LsuListLive
import Verif.Props.LsuList
import Verif.Model.LsuStq
import Verif.Proofs.LsuStq
import Verif.Proofs.LsuStqStep
import Verif.Proofs.LsuStqStep2
import Verif.Proofs.LsuStqCycle
import Verif.Proofs.LsuStqPlay
import Verif.Proofs.LsuStqStuck
import Verif.Props.LsuStq
import Verif.Model.PtwBlock
import Verif.Model.PtwKernel
import Verif.Model.PtwTwin
import Verif.Spec.PtwTwin
import Verif.Proofs.PtwBits
import Verif.Proofs.PtwGlue
import Verif.Proofs.PtwTwin
import Verif.Proofs.PtwSim
import Verif.Props.PtwTwin
import Verif.Model.Oracle
import Verif.Spec.Oracle
import Verif.Proofs.Oracle
import Verif.Proofs.OracleRef
import Verif.Props.Oracle
import Verif.Model.TlbKernel
import Verif.Model.TlbPacked
import Verif.Model.MmuPacked
import Verif.Spec.TlbKernel
import Verif.Proofs.TlbBits
import Verif.Proofs.TlbKernelLane
import Verif.Proofs.TlbSim
import Verif.Proofs.MmuPacked
import Verif.Props.TlbKernel
import Verif.Model.ICacheBits
import Verif.Model.ICacheTopBits
import Verif.Model.FetchBits
import Verif.Spec.FetchBitsRun
import Verif.Proofs.ICacheRaw
import Verif.Proofs.ICacheRawSm
import Verif.Proofs.ICacheRawMiss
import Verif.Proofs.ICacheRawCore
import Verif.Proofs.ICachePack
import Verif.Proofs.ICachePackSim
import Verif.Proofs.ICacheTopSim
import Verif.Proofs.FetchBitsSim
import Verif.Props.FetchBits
import Verif.Spec.FullCpu
import Verif.Proofs.FullCpuLib
import Verif.Proofs.FullCpuFetch
import Verif.Proofs.FullCpu
import Verif.Proofs.FullCpuStep
import Verif.Props.FullCpu
import Verif.Spec.Sched
import Verif.Proofs.SchedBound
import Verif.Proofs.Sched
import Verif.Props.Sched
import Verif.Spec.Ooo
import Verif.Proofs.Ooo
import Verif.Props.Ooo
import Verif.Spec.Waker
import Verif.Proofs.WakerSlots
import Verif.Proofs.Waker
import Verif.Props.Waker
import Verif.Spec.Progress
import Verif.Proofs.ProgressSrc
import Verif.Proofs.Progress
import Verif.Props.Progress
import Verif.Spec.Alive
import Verif.Proofs.Alive
import Verif.Proofs.Settle
import Verif.Props.Alive
import Verif.Model.TageSys
import Verif.Spec.TageSys
import Verif.Proofs.TageLate
import Verif.Proofs.TageSys
import Verif.Props.TageSys
import Verif.Spec.Total
import Verif.Proofs.Total
import Verif.Props.Total
import Verif.Model.Table
import Verif.Spec.Table
import Verif.Proofs.Table
import Verif.Props.Table
import Verif.Model.TopDown
import Verif.Spec.TopDown
import Verif.Proofs.TopDown
import Verif.Props.TopDown
import Verif.Model.TraceRing
import Verif.Spec.TraceRing
import Verif.Proofs.TraceRing
import Verif.Props.TraceRing
import Verif.Model.LatLookup
import Verif.Spec.LatLookup
import Verif.Proofs.LatLookup
import Verif.Props.LatLookup
import Verif.Model.IdealIc
import Verif.Spec.IdealIc
import Verif.Proofs.IdealIc
import Verif.Props.IdealIc
import Verif.Model.XPrintf
import Verif.Spec.XPrintf
import Verif.Proofs.XPrintf
import Verif.Props.XPrintf
import Verif.Model.SpecScore
import Verif.Spec.SpecScore
import Verif.Proofs.SpecScore
import Verif.Props.SpecScore
import Verif.Model.BranchCount
import Verif.Spec.BranchCount
import Verif.Proofs.BranchCount
import Verif.Props.BranchCount
import Verif.Model.TmaParse
import Verif.Spec.TmaParse
import Verif.Proofs.TmaParse
import Verif.Props.TmaParse
