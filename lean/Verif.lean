import Verif.Api
import Verif.Bits
import Verif.Bls.CofGen
import Verif.Bls.CofOrder
import Verif.Bls.CofPoints
import Verif.Bls.CofPrime
import Verif.Bls.Consts
import Verif.Bls.Cyclo
import Verif.Bls.Expt
import Verif.Bls.Fields
import Verif.Bls.FinalExp
import Verif.Bls.FinalExpProps
import Verif.Bls.Forge
import Verif.Bls.Frob
import Verif.Bls.G2
import Verif.Bls.G2Affine
import Verif.Bls.G2Cof
import Verif.Bls.G2Flags
import Verif.Bls.G2Jac
import Verif.Bls.G2Psi
import Verif.Bls.G2Spec
import Verif.Bls.H2C
import Verif.Bls.H2CConst
import Verif.Bls.H2CSpec
import Verif.Bls.H2F
import Verif.Bls.HashVec
import Verif.Bls.Irred
import Verif.Bls.Iso
import Verif.Bls.Karabina
import Verif.Bls.Miller
import Verif.Bls.MillerProof
import Verif.Bls.NegAffine
import Verif.Bls.PairExample
import Verif.Bls.PairInf
import Verif.Bls.PairingL
import Verif.Bls.PairingSpec
import Verif.Bls.Props
import Verif.Bls.PropsCof
import Verif.Bls.PropsCofC
import Verif.Bls.PropsExc
import Verif.Bls.PropsExp
import Verif.Bls.PropsFinal
import Verif.Bls.PropsG2
import Verif.Bls.PropsG2Ex
import Verif.Bls.PropsG2Signed
import Verif.Bls.PropsHash
import Verif.Bls.PropsPair
import Verif.Bls.PropsSswu
import Verif.Bls.Sample
import Verif.Bls.SampleProps
import Verif.Bls.SampleVec
import Verif.Bls.Spec
import Verif.Bls.SqrtRatio
import Verif.Bls.Sswu
import Verif.Bls.Tower
import Verif.Bls.TowerProps
import Verif.Bls.Xmd
import Verif.Bls.XmdSpec
import Verif.Common.Abi
import Verif.Common.AbiProps
import Verif.Common.AggExport
import Verif.Common.AggExportProps
import Verif.Common.Client
import Verif.Common.ClientProps
import Verif.Common.Codec
import Verif.Common.CodecProps
import Verif.Common.Compose
import Verif.Common.ComposeProps
import Verif.Common.HashProps
import Verif.Common.Hex
import Verif.Common.HexProps
import Verif.Common.Json
import Verif.Common.JsonProps
import Verif.Common.KeyFiles
import Verif.Common.KeyFilesProps
import Verif.Common.Misc
import Verif.Common.MiscProps
import Verif.Common.OnChain
import Verif.Common.OnChainProps
import Verif.Common.Poseidon
import Verif.Common.PoseidonProps
import Verif.Common.QueryId
import Verif.Common.QueryIdProps
import Verif.Common.RecompProps
import Verif.Common.S3
import Verif.Common.S3Props
import Verif.Common.Text
import Verif.Common.TextProps
import Verif.Common.TxProof
import Verif.Common.TxProofProps
import Verif.Common.TxSigner
import Verif.Common.TxSignerProps
import Verif.Common.VkHash
import Verif.Common.VkHashProps
import Verif.Conv.Model
import Verif.Conv.Props
import Verif.Ec.Edwards
import Verif.Ec.Endo
import Verif.Ec.Short
import Verif.Ed.Bytes
import Verif.Ed.Curve
import Verif.Ed.Group
import Verif.Ed.Model
import Verif.Ed.Order
import Verif.Ed.Props
import Verif.Ed.Spec
import Verif.Ed.Vectors
import Verif.Ed.Verify
import Verif.EdHost.AliasField
import Verif.EdHost.AliasModel
import Verif.EdHost.AliasPoint
import Verif.EdHost.AliasPoint2
import Verif.EdHost.AliasProps
import Verif.EdHost.Asm
import Verif.EdHost.AsmModel
import Verif.EdHost.AsmProg
import Verif.EdHost.AsmProps
import Verif.EdHost.Digits
import Verif.EdHost.FieldArith
import Verif.EdHost.FieldBytes
import Verif.EdHost.FieldModel
import Verif.EdHost.FieldProps
import Verif.EdHost.Mult
import Verif.EdHost.MultModel
import Verif.EdHost.Point
import Verif.EdHost.PointModel
import Verif.EdHost.PointProps
import Verif.EdHost.Scalar
import Verif.EdHost.ScalarBlk
import Verif.EdHost.ScalarModel
import Verif.EdHost.ScalarProps
import Verif.EdHost.ScalarVal
import Verif.EdHost.Vectors
import Verif.EdHost.Witness
import Verif.Emu.Model
import Verif.Emu.Narrow
import Verif.Emu.Props
import Verif.Fabric.Model
import Verif.Fabric.Props
import Verif.Index.Model
import Verif.Index.Props
import Verif.Keccak.EndToEnd
import Verif.Keccak.Fast
import Verif.Keccak.Merkle
import Verif.Keccak.MerkleProps
import Verif.Keccak.MerkleSpec
import Verif.Keccak.NibbleProps
import Verif.Keccak.Pad
import Verif.Keccak.PadBitsProps
import Verif.Keccak.PadProps
import Verif.Keccak.Perm
import Verif.Keccak.PermProps
import Verif.Keccak.Spec
import Verif.Keccak.Sponge
import Verif.Keccak.SpongeProps
import Verif.Keccak.Vectors
import Verif.Keccak.Words
import Verif.Keccak.WordsProps
import Verif.Limbs.Lemmas
import Verif.Limbs.Model
import Verif.Limbs.Narrow
import Verif.Limbs.Props
import Verif.Limbs.Resplit
import Verif.Limbs.Spec
import Verif.Mimc.EmuProps
import Verif.Mimc.Model
import Verif.Mimc.Props
import Verif.Mimc.Spec
import Verif.Mimc.Tree
import Verif.Mpt.Complete
import Verif.Mpt.CompleteProps
import Verif.Mpt.EthAccount
import Verif.Mpt.EthAccount2
import Verif.Mpt.EthAddress
import Verif.Mpt.EthAddress2
import Verif.Mpt.EthAddress3
import Verif.Mpt.EthBlock
import Verif.Mpt.EthBlock2
import Verif.Mpt.EthModel
import Verif.Mpt.EthRow
import Verif.Mpt.EthSat
import Verif.Mpt.EthSlot
import Verif.Mpt.EthSpec
import Verif.Mpt.EthStorage
import Verif.Mpt.EthStorage2
import Verif.Mpt.EthStorage3
import Verif.Mpt.EthStorage4
import Verif.Mpt.Forge
import Verif.Mpt.Frag
import Verif.Mpt.Hash
import Verif.Mpt.Layer
import Verif.Mpt.Mainnet
import Verif.Mpt.Model
import Verif.Mpt.NoBranch
import Verif.Mpt.NoBranchProps
import Verif.Mpt.NodeComplete
import Verif.Mpt.NodeProps
import Verif.Mpt.Nodes
import Verif.Mpt.Read
import Verif.Mpt.Reveal
import Verif.Mpt.Rows
import Verif.Mpt.Run
import Verif.Mpt.Sound
import Verif.Mpt.Spec
import Verif.Mpt.Step
import Verif.Mpt.Sums
import Verif.Mpt.TxHash
import Verif.Mux
import Verif.MuxLemmas
import Verif.MuxProps
import Verif.MuxSpec
import Verif.ND
import Verif.Primes
import Verif.Rlp.ArrayLemmas
import Verif.Rlp.BlkNest
import Verif.Rlp.Enc
import Verif.Rlp.Exact
import Verif.Rlp.HexFr
import Verif.Rlp.Inject
import Verif.Rlp.LeftShift
import Verif.Rlp.Lemmas
import Verif.Rlp.ListProps
import Verif.Rlp.ListProps2
import Verif.Rlp.Model
import Verif.Rlp.NestComplete
import Verif.Rlp.Props
import Verif.Rlp.Spec
import Verif.Rlp.TxLeaf
import Verif.Rlp.TxLeafProps
import Verif.Rlp.TxLeafProps2
import Verif.Rlp.TxLeafProps3
import Verif.Sha.Block
import Verif.Sha.Digest
import Verif.Sha.Lift
import Verif.Sha.Model
import Verif.Sha.Props
import Verif.Sha.Sample
import Verif.Sha.SampleProps
import Verif.Sha.Spec
import Verif.Sha.Vectors
import Verif.Slices
import Verif.SlicesProps
import Verif.SlicesSpec
import Verif.Util
