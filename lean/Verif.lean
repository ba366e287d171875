import Verif.Base
import Verif.Props.Bytes
import Verif.Props.LSSS
import Verif.Props.Wide
import Verif.Props.Numeric
import Verif.Props.Parser
import Verif.Props.Lists
import Verif.Props.Dates
import Verif.Props.Container
import Verif.Props.Keystore
import Verif.Props.Scheme
import Verif.Props.KeyMgr
import Verif.Props.Sym
import Verif.Props.Stream
import Verif.Props.StreamCtx
import Verif.Props.Flex
import Verif.Props.Kdf
import Verif.Props.Library
import Verif.Props.HashAttr
import Verif.Props.Housekeeping
import Verif.Props.KeyLength
import Verif.Model.Cpa
import Verif.Proof.Wire
import Verif.Props.Wire
import Verif.Model.ScanStack
import Verif.Proof.ScanStack
import Verif.Props.ScanStack
import Verif.Model.Pke
import Verif.Props.Pke
import Verif.Model.Zr
import Verif.Proof.Zr
import Verif.Props.Zr
import Verif.Model.Element
import Verif.Props.Collusion
import Verif.Props.Adaptive
import Verif.Props.Element
import Verif.Model.Utils
import Verif.Props.Search
import Verif.Props.Utils
import Verif.Model.KeyMgrThreads
import Verif.Proof.KeyMgrThreads
import Verif.Props.Threads
import Verif.Props.FlexBuffer
import Verif.Model.SchemeObjects
import Verif.Proof.SchemeObjects
import Verif.Props.SchemeObjects
import Verif.Proof.Typed
import Verif.Props.Typed
import Verif.Model.ParserHeap
import Verif.Proof.ParserHeap
import Verif.Proof.ParserHeapRun
import Verif.Props.ParserHeap
import Verif.Model.Memory
import Verif.Spec.Memory
import Verif.Proof.Memory
import Verif.Proof.MemoryWorld
import Verif.Proof.MemoryScheme
import Verif.Props.Memory
import Verif.Model.CipherMemory
import Verif.Spec.CipherMemory
import Verif.Proof.CipherMemory
import Verif.Props.CipherMemory
import Verif.Model.ContextMemory
import Verif.Spec.ContextMemory
import Verif.Proof.ContextMemory
import Verif.Proof.ContextMemoryBodies
import Verif.Proof.ContextMemoryInv
import Verif.Proof.ContextMemoryLeaks
import Verif.Proof.ContextMemoryStep
import Verif.Proof.ContextMemoryCalls
import Verif.Proof.ContextMemoryOps
import Verif.Proof.ContextMemoryRun
import Verif.Proof.ContextMemoryKey
import Verif.Proof.ContextMemoryEnc
import Verif.Proof.ContextMemoryDec
import Verif.Proof.ContextMemoryHistory
import Verif.Props.ContextMemory
import Verif.Model.LibThreads
import Verif.Spec.LibThreads
import Verif.Proof.LibThreads
import Verif.Props.LibThreads
import Verif.Model.Locations
import Verif.Spec.Locations
import Verif.Proof.Locations
import Verif.Proof.Viable
import Verif.Proof.SyntaxErrors
import Verif.Proof.SyntaxReports
import Verif.Props.SyntaxErrors
import Verif.Props.CallStack
import Verif.Props.WireSize
import Verif.Props.DateCheck
import Verif.Props.Residue
import Verif.Props.Authentic
import Verif.Props.Hiding
import Verif.Props.Leakage
import Verif.Props.MaskSize
import Verif.Props.Cca
import Verif.Props.CtxThreads
import Verif.Props.AeadSize
import Verif.Props.SearchSize
import Verif.Spec.Rows
import Verif.Proof.Rows
import Verif.Proof.RowsExact
import Verif.Props.Rows
import Verif.Model.KeyRing
import Verif.Props.KeyRing
import Verif.Props.Reload
import Verif.Props.Persist
import Verif.Props.PairStack
import Verif.Props.Exact
import Verif.Props.Survive
import Verif.Props.ReuseExact
import Verif.Props.Outcome
import Verif.Props.SymExact
import Verif.Props.Accepted
import Verif.Props.KeysExact
import Verif.Props.Compare
import Verif.Spec.Sessions
import Verif.Props.Sessions
import Verif.Props.SessionsCtx
import Verif.Model.ContainerUse
import Verif.Spec.ContainerUse
import Verif.Props.ContainerUse
import Verif.Spec.ZrExpr
import Verif.Props.ZrExpr
import Verif.Spec.DateAll
import Verif.Props.DateAll
import Verif.Spec.PolicyEdits
import Verif.Proof.PolicyEdits
import Verif.Props.PolicyEdits
import Verif.Spec.TextLayout
import Verif.Props.TextLayout
import Verif.Spec.PrintExact
import Verif.Props.PrintExact
import Verif.Props.ListExact
import Verif.Spec.Mixed
import Verif.Proof.Mixed
import Verif.Props.Mixed
import Verif.Props.MixedKeys
import Verif.Props.KdfExact
import Verif.Props.AeadExact
import Verif.Props.PrefixIds
import Verif.Props.Release
import Verif.Props.LibContexts
import Verif.Props.IntegerBytes
import Verif.Props.FlexExact
import Verif.Props.KmRelease
