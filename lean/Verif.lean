import Verif.Bytes
import Verif.Serialize
import Verif.Spec.Wire
import Verif.SerializeLemmas
import Verif.Types
import Verif.Confidential
import Verif.Tx
import Verif.Spec.WireTx
import Verif.TxLemmas
import Verif.TxWriteLemmas
import Verif.Spec.Conf
import Verif.Hash
import Verif.Spec.Collision
import Verif.Props.Confidential
import Verif.Props.Tx
import Verif.Script
import Verif.Spec.Push
import Verif.Props.Script
import Verif.Sighash
import Verif.SighashLemmas
import Verif.Spec.Sighash
import Verif.Props.SighashV0
import Verif.Spec.SighashTap
import Verif.Props.SighashTap
import Verif.Props.SighashTapArgs
import Verif.Spec.SighashBase
import Verif.Props.SighashBase
import Verif.Issue
import Verif.Props.Issue
import Verif.Blech32
import Verif.Spec.Bits
import Verif.ConvertLemmas
import Verif.BlechLemmas
import Verif.Spec.Blech
import Verif.BlechAddr
import Verif.GF1024
import Verif.Props.Blech
import Verif.Wallet
import Verif.Props.Wallet
import Verif.Blind
import Verif.BlindLemmas
import Verif.Spec.Blind
import Verif.Spec.Zkp
import Verif.ZkpToy
import Verif.Props.BlindFrame
import Verif.BlindChecks
import Verif.Props.BlindFail
import Verif.Spec.Unblind
import Verif.Props.Unblind
import Verif.Spec.Targets
import Verif.Props.BlindTargets
import Verif.BlindRun
import Verif.BlindLoop
import Verif.BlindFacts
import Verif.Spec.BlindDone
import Verif.Props.BlindDone
import Verif.Spec.Balance
import Verif.Props.Balance
import Verif.Props.BlindUnblind
import Verif.Library
import Verif.Spec.Library
import Verif.Props.Library
import Verif.Results
import Verif.Props.Results
import Verif.Objects
import Verif.Spec.Objects
import Verif.ObjectLemmas
import Verif.Props.Objects
import Verif.Spec.SighashLayout
import Verif.Props.SighashLayout
import Verif.Props.SighashIndex
import Verif.Spec.Draws
import Verif.Props.Draws
import Verif.Spec.TokenId
import Verif.Props.TokenId
import Verif.Spec.BlindWire
import Verif.Props.BlindWire
import Verif.Props.BlindWireAll
import Verif.WalletKeys
import Verif.Props.WalletKeys
import Verif.Spec.Spend
import Verif.Props.Spend
import Verif.Repr
import Verif.Spec.Repr
import Verif.Props.Repr
import Verif.Spec.BlindEnd
import Verif.Props.BlindEnd
import Verif.Spec.Buffers
import Verif.Props.Buffers
import Verif.Surjection
import Verif.Spec.Handles
import Verif.Props.Handles
import Verif.Spec.Surjection
import Verif.Props.Surjection
import Verif.Props.TargetsCoded
import Verif.CrossSwap
import Verif.CrossSwapLemmas
import Verif.SwapTime
import Verif.Spec.Interp
import Verif.Spec.CrossSwap
import Verif.Spec.Ecdsa
import Verif.Props.CrossSwap
import Verif.Props.KeyReveal
import Verif.Props.SwapTime
import Verif.Spec.Predicates
import Verif.Props.Predicates
import Verif.Props.BlechPrefix
import Verif.Spec.Joint
import Verif.Props.Joint
import Verif.Spec.BlechText
import Verif.Props.BlechText
import Verif.Props.WalletOut
import Verif.SpendAddr
import Verif.Spec.SpendAddr
import Verif.Props.SpendAddr
import Verif.AssetSwap
import Verif.Spec.AssetSwap
import Verif.Props.AssetSwap
import Verif.Props.AssetSwapBack
import Verif.Props.AssetSwapToy
import Verif.Spec.BlindGoes
import Verif.BlindGoes
import Verif.Props.BlindGoes
import Verif.UnblindEx
import Verif.Spec.UnblindEx
import Verif.Props.UnblindEx
import Verif.Spec.Messages
import Verif.Props.Messages
import Verif.SwapSpend
import Verif.Spec.SwapSpend
import Verif.Props.SwapSpend
import Verif.Props.SwapSpendToy
import Verif.Props.SwapSpendGoes
import Verif.SwapBtc
import Verif.Spec.SwapBtc
import Verif.Props.SwapBtc
import Verif.Props.SwapBtcToy
import Verif.SwapWatch
import Verif.Spec.SwapWatch
import Verif.Props.SwapWatch
import Verif.SwapRun
import Verif.Spec.SwapRun
import Verif.Props.SwapRun
import Verif.Props.SwapWhy
import Verif.Props.SwapRunToy
import Verif.AssetRun
import Verif.Spec.AssetRun
import Verif.Props.AssetRun
import Verif.Props.AssetRunToy
import Verif.Opcodes
import Verif.Spec.Opcodes
import Verif.Props.Opcodes
import Verif.ChainParams
import Verif.Spec.ChainParams
import Verif.Props.ChainParams
import Verif.Spec.SwapJoint
import Verif.Props.SwapJoint
import Verif.Props.SwapJointToy
import Verif.Spec.AssetJoint
import Verif.Props.AssetJoint
import Verif.Props.AssetJointToy
import Verif.AssetPair
import Verif.Props.AssetPair
import Verif.Props.AssetPairToy
import Verif.SwapPair
import Verif.Props.SwapPair
import Verif.Props.SwapPairToy
import Verif.Spec.SwapBoth
import Verif.Props.SwapBoth
import Verif.Props.SwapBothToy
import Verif.Spec.AddrText
import Verif.AddrText
import Verif.Props.AddrText
import Verif.Props.AddrTextToy
import Verif.Bech32
import Verif.Props.Bech32
import Verif.Spec.Node
import Verif.Props.Node
import Verif.Props.NodeToy
import Verif.Props.NodeGoes
import Verif.Spec.NodeJoint
import Verif.Props.NodeJoint
import Verif.Props.NodeSwap
import Verif.Spec.NodeSpend
import Verif.Props.NodeSpend
import Verif.BlechClass
import Verif.Spec.BlechClass
import Verif.Props.BlechClass
import Verif.Props.TxShort
import Verif.BlindShared
import Verif.Spec.BlindShared
import Verif.Props.BlindShared
import Verif.Ffi
import Verif.Spec.Ffi
import Verif.Props.Ffi
import Verif.Props.FfiBlind
import Verif.Spec.BalanceExact
import Verif.Props.BalanceExact
import Verif.Spec.AssetHonest
import Verif.Props.AssetHonest
import Verif.Props.AssetHonestToy
import Verif.Spec.AssetHonestRun
import Verif.Props.HonestRun
import Verif.Props.AssetHonestRun
import Verif.Props.AssetHonestRunToy
import Verif.Spec.AssetBack
import Verif.Props.AssetBack
import Verif.Props.AssetBackToy
import Verif.Spec.SwapHonest
import Verif.Props.SwapFollow
import Verif.Props.SwapHonestRun
import Verif.Props.SwapHonestRunToy
import Verif.Spec.SwapLimits
import Verif.Props.SwapLimits
import Verif.Props.SwapLimitsToy
import Verif.Spec.Hides
import Verif.Props.Hides
import Verif.Props.HidesToy
import Verif.Props.AddrExact
import Verif.Props.SpendExact
import Verif.Props.SpendAddrExact
import Verif.Spec.SignAfter
import Verif.Props.SignAfter
import Verif.Spec.BlindAgain
import Verif.Props.BlindAgain
import Verif.Spec.BlindCount
import Verif.Props.BlindCount
import Verif.Spec.MinimalPush
import Verif.Props.MinimalPush
import Verif.Props.MinimalPushToy
import Verif.Spec.OnlyKey
import Verif.Props.OnlyKey
import Verif.Spec.NodeAddress
import Verif.Props.NodeAddress
import Verif.Props.Receive
import Verif.Props.BechText
import Verif.Props.BechErrors
import Verif.Props.Bursts
import Verif.Props.OneTypo
