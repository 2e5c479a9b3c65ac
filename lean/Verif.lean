import Verif.Props.HashLock
import Verif.Props.Bits
import Verif.Props.Composite
import Verif.Props.Generator
import Verif.Props.Forward
import Verif.Props.Parallelize
import Verif.Props.Queue
import Verif.Props.Pipeline
import Verif.Props.Refcnt
import Verif.Props.AsyncLock
import Verif.Props.Alock
import Verif.Props.Lru
import Verif.Props.Evict
import Verif.Props.Collision
import Verif.Props.IdxList
import Verif.Props.Space
import Verif.Props.Mode
import Verif.Props.Geometry
import Verif.Props.CoreId
import Verif.Props.Mpool
import Verif.Props.IoClass
import Verif.Props.Engine
import Verif.Props.EngineRace
import Verif.Props.EngineCrash
import Verif.Props.EngineCrashRace
import Verif.Props.CleanerSplit
import Verif.Props.Cleaner
import Verif.Props.CleanerDone
import Verif.Props.Superblock
import Verif.Props.SbValidate
import Verif.Props.Recovery
import Verif.Props.Layout
import Verif.Props.Discard
import Verif.Props.Stats
import Verif.Props.Nhit
import Verif.Props.Account
import Verif.Props.FlushMngt
import Verif.Props.RbTree
import Verif.Props.SeqCutoff
import Verif.Props.Alru
import Verif.Props.Acp
import Verif.Props.MetaFlush
import Verif.Props.MetaIo
import Verif.Props.MetaLock
import Verif.Props.LruClean
import Verif.Props.MetaDev
import Verif.Props.MetaRaw
import Verif.Props.Passive
import Verif.Props.ReqRef
import Verif.Props.EngineDiscardRace
import Verif.Props.ReqAlloc
import Verif.Props.MngtLock
import Verif.Props.CoreMngt
import Verif.Props.PolicySwitch
import Verif.Props.Ctx
import Verif.Props.Volume
import Verif.Props.Submit
import Verif.Props.Promo
import Verif.Props.QueueLife
import Verif.Props.Realloc
import Verif.Props.CacheStart
import Verif.Props.RawAtomic
import Verif.Props.CacheVisit
import Verif.Props.CleanParam
