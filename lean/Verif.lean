import Verif.BigInt.Complete
import Verif.BigInt.CompleteCarry
import Verif.BigInt.CompleteMod
import Verif.BigInt.CompleteSel
import Verif.BigInt.CompleteSub
import Verif.BigInt.CompleteZero
import Verif.BigInt.Model
import Verif.BigInt.Rel
import Verif.BigInt.SoundCarry
import Verif.BigInt.SoundMod
import Verif.BigInt.SoundOps
import Verif.BigInt.SoundSub
import Verif.BigInt.Spec
import Verif.Core.Complete
import Verif.Core.Context
import Verif.Core.Layable
import Verif.Core.Logic
import Verif.Core.Primes
import Verif.Core.PrimesSecp
import Verif.Core.Rel
import Verif.Core.Ret
import Verif.Core.Run
import Verif.Core.Sat
import Verif.Ecc.Complete
import Verif.Ecc.CompleteConcrete
import Verif.Ecc.CompleteFixed
import Verif.Ecc.CompleteMsm
import Verif.Ecc.CompletePar
import Verif.Ecc.CompletePip
import Verif.Ecc.CompleteSig
import Verif.Ecc.Concrete
import Verif.Ecc.Curve
import Verif.Ecc.EqOwn
import Verif.Ecc.GroupOrder
import Verif.Ecc.Model
import Verif.Ecc.ModelPar
import Verif.Ecc.MsmCount
import Verif.Ecc.Naf
import Verif.Ecc.Order
import Verif.Ecc.PipCount
import Verif.Ecc.Rel
import Verif.Ecc.RelPar
import Verif.Ecc.Sig
import Verif.Ecc.Sound
import Verif.Ecc.SoundFixed
import Verif.Ecc.SoundMsm
import Verif.Ecc.SoundPip
import Verif.Ecc.SoundSig
import Verif.Fields.Complete
import Verif.Fields.CompleteBn
import Verif.Fields.CompleteExt
import Verif.Fields.CompleteFp12
import Verif.Fields.CompleteLaws
import Verif.Fields.Concrete
import Verif.Fields.ConcreteBn
import Verif.Fields.ConcreteExt
import Verif.Fields.Ext
import Verif.Fields.Laws
import Verif.Fields.LawsExt
import Verif.Fields.LawsExt2
import Verif.Fields.LawsFp12
import Verif.Fields.LawsNative
import Verif.Fields.Model
import Verif.Fields.Rel
import Verif.Fields.RelExt
import Verif.Fields.Sound
import Verif.Gate.Complete
import Verif.Gate.CompleteBits
import Verif.Gate.CompleteList
import Verif.Gate.Lagrange
import Verif.Gate.Model
import Verif.Gate.Rel
import Verif.Gate.Sound
import Verif.Gate.SoundBits
import Verif.Gate.SoundList
import Verif.Kec.Chi
import Verif.Kec.Congr
import Verif.Kec.Digits
import Verif.Kec.Forge
import Verif.Kec.ForgeHash
import Verif.Kec.ForgeMsg
import Verif.Kec.Good
import Verif.Kec.GoodPar
import Verif.Kec.Large
import Verif.Kec.LargePar
import Verif.Kec.Layout
import Verif.Kec.Look
import Verif.Kec.Model
import Verif.Kec.Quiet
import Verif.Kec.Rho
import Verif.Kec.Round
import Verif.Kec.Round2
import Verif.Kec.Sound
import Verif.Kec.SoundHash
import Verif.Kec.SoundOut
import Verif.Kec.Spec
import Verif.Kec.Vectors
import Verif.Kec.WitAdv
import Verif.Kec.WitCheck
import Verif.Kec.WitDigits
import Verif.Kec.WitGates
import Verif.Kec.WitHash
import Verif.Kec.WitMsg
import Verif.Kec.WitOut
import Verif.Kec.WitPar
import Verif.Kec.WitRegion
import Verif.Kec.WitRound
import Verif.Kec.WitRoundGates
import Verif.Kec.WitSat
import Verif.Kec.Witness
import Verif.KecComp.Circuit
import Verif.KecComp.Model
import Verif.KecComp.Pure
import Verif.KecComp.Rel
import Verif.KecComp.Shard
import Verif.KecComp.Sound
import Verif.KecComp.Spec
import Verif.KecComp.Table
import Verif.KecComp.VarLen
import Verif.KecComp.Whole
import Verif.Pairing.CompleteExp
import Verif.Pairing.CompleteExp2
import Verif.Pairing.CompleteLine
import Verif.Pairing.CompleteMiller
import Verif.Pairing.CompletePairing
import Verif.Pairing.CompletePow
import Verif.Pairing.CompleteRep
import Verif.Pairing.CompleteSparse
import Verif.Pairing.EqOwn
import Verif.Pairing.Generator
import Verif.Pairing.Math
import Verif.Pairing.Model
import Verif.Pairing.OrderG2
import Verif.Pairing.Rel
import Verif.Pairing.Rep
import Verif.Pairing.SoundExp
import Verif.Pairing.SoundExp2
import Verif.Pairing.SoundFinal
import Verif.Pairing.SoundLine
import Verif.Pairing.SoundMiller
import Verif.Pairing.SoundMulti
import Verif.Pairing.SoundPairing
import Verif.Pairing.SoundPow
import Verif.Pairing.SoundSparse
import Verif.Pairing.Spec
import Verif.Pairing.SpecLemmas
import Verif.Pairing.WellFormed
import Verif.Poseidon.Complete
import Verif.Poseidon.CompleteChunks
import Verif.Poseidon.Model
import Verif.Poseidon.Native
import Verif.Poseidon.Rel
import Verif.Poseidon.Sound
import Verif.Poseidon.SoundHash
import Verif.Poseidon.Spec
import Verif.Poseidon.SpecEquiv
import Verif.Poseidon.Sponge
import Verif.Props.BigInt
import Verif.Props.BlsForge
import Verif.Props.Builder
import Verif.Props.BuilderOps
import Verif.Props.Capacity
import Verif.Props.CompleteEcc
import Verif.Props.CompleteExt
import Verif.Props.CompleteField
import Verif.Props.CompleteMsm
import Verif.Props.CompletePairing
import Verif.Props.CompleteSig
import Verif.Props.ConstUint
import Verif.Props.DynLookup
import Verif.Props.Ecc
import Verif.Props.EcdsaCircuit
import Verif.Props.EcdsaKeygen
import Verif.Props.EndToEnd
import Verif.Props.Ext
import Verif.Props.External
import Verif.Props.Fields
import Verif.Props.FreeQuotient
import Verif.Props.Gate
import Verif.Props.Kec
import Verif.Props.KecComp
import Verif.Props.KecFindings
import Verif.Props.KecLarge
import Verif.Props.KecMsgForge
import Verif.Props.KecWit
import Verif.Props.Layable
import Verif.Props.Layout
import Verif.Props.MainKeygen
import Verif.Props.Modes
import Verif.Props.ModesEcc
import Verif.Props.ModesMsm
import Verif.Props.ModesPairing
import Verif.Props.Pairing
import Verif.Props.PairingCircuit
import Verif.Props.Pipeline
import Verif.Props.Poseidon
import Verif.Props.Range
import Verif.Props.RangeFindings
import Verif.Props.SafeTypes
import Verif.Props.SchnorrCircuit
import Verif.Props.Sha
import Verif.Props.ShaShift
import Verif.Props.Shard
import Verif.Props.ShardKeygen
import Verif.Props.Shared
import Verif.Props.Sig
import Verif.Props.SoftVec
import Verif.Props.Utils
import Verif.Props.Zk
import Verif.Range.Complete
import Verif.Range.Model
import Verif.Range.Rel
import Verif.Range.Sound
import Verif.Range.SoundOps
import Verif.SafeTypes.Complete
import Verif.SafeTypes.Model
import Verif.SafeTypes.Rel
import Verif.SafeTypes.Sound
import Verif.Sha.Bits
import Verif.Sha.Complete
import Verif.Sha.HonBlock
import Verif.Sha.HonGates
import Verif.Sha.HonRows
import Verif.Sha.Model
import Verif.Sha.Rows
import Verif.Sha.Shift
import Verif.Sha.Sound
import Verif.Sha.SoundHash
import Verif.Sha.SoundPad
import Verif.Sha.Spec
import Verif.Sha.WitBits
import Verif.Sha.Witness
import Verif.Threads.Builder
import Verif.Threads.BuilderInv
import Verif.Threads.BuilderRun
import Verif.Threads.Capacity
import Verif.Threads.CtxProg
import Verif.Threads.DynLookup
import Verif.Threads.E2E
import Verif.Threads.EqOwn
import Verif.Threads.External
import Verif.Threads.Layout
import Verif.Threads.Model
import Verif.Threads.Pool
import Verif.Threads.PoolCmp
import Verif.Threads.PoolRel
import Verif.Threads.Prover
import Verif.Threads.Replay
import Verif.Threads.Resynth
import Verif.Threads.Sched
import Verif.Threads.Shape
import Verif.Threads.Shared
import Verif.Threads.Synth
import Verif.Utils.Model
import Verif.Utils.Sound
import Verif.Zk.Model
