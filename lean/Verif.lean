import Verif.Props.Bech32
import Verif.Props.Address
import Verif.Props.Byron
import Verif.Props.AddressString
import Verif.Props.Detect
import Verif.Props.Tx
import Verif.Props.Builder
import Verif.Props.TxSamples
import Verif.Props.Keys
import Verif.Props.Scalar
import Verif.Props.Field
import Verif.Props.Group
import Verif.Props.Sign
import Verif.Props.Node
import Verif.Props.Order
import Verif.Tx.Heap
import Verif.Props.Sharing
import Verif.Props.Wallet
import Verif.Props.Formats
import Verif.Props.Crc
import Verif.Props.Protocol
import Verif.Tx.Golden
import Verif.Tx.EndToEnd
import Verif.Address.Golden
import Verif.Props.Unicode
import Verif.Props.Submit
import Verif.Ledger.Golden
import Verif.Props.Ledger
import Verif.Props.KeyMemory
import Verif.Props.Metadata
import Verif.Props.ByronSpec
import Verif.Examples.Model
import Verif.Props.Examples
import Verif.Tx.Manual
import Verif.Props.Manual
import Verif.Bech32.Slips
import Verif.Props.Typo
import Verif.Ed25519.PointersDouble
import Verif.Bip32.SignPointers
import Verif.Props.InPlace
import Verif.Props.Destinations
import Verif.Props.Chain
import Verif.Props.Restore
import Verif.Props.Concurrent
import Verif.Props.AddressObjects
import Verif.Props.Missing
import Verif.Props.WatchOnly
import Verif.Props.Nonces
import Verif.Props.Goroutines
import Verif.Node.Client
import Verif.Props.NodeMore
import Verif.Ledger.Metadata
import Verif.Props.MetadataRules
import Verif.Json.Encode
import Verif.Json.EncodeProofs
import Verif.Examples.Node
import Verif.Props.Saved
import Verif.Props.Asked
import Verif.Tx.Decode
import Verif.Props.Decode
import Verif.Props.Lists
import Verif.Props.Paths
import Verif.Byron.Limits
import Verif.Props.ByronLimits
import Verif.Tx.Nil
import Verif.Props.Nil
import Verif.Props.Altered
import Verif.Props.Independent
import Verif.Props.Leak
import Verif.Props.Networks
import Verif.Props.ManyKeys
import Verif.Props.Strict
import Verif.Props.Enough
import Verif.Props.Reorder
import Verif.Props.BuildFirst
import Verif.Cbor.Canon
import Verif.Props.Canonical
import Verif.Props.Stale
import Verif.Props.Foretold
import Verif.Props.Rollback
import Verif.Props.Sweep
import Verif.Props.Collected
import Verif.Props.Eras
import Verif.Props.Cold
import Verif.Ed25519.Leakage
import Verif.Bip32.Accesses
import Verif.Bip32.AccessesProof
import Verif.Props.Leakage
import Verif.Props.MistypedLemmas
import Verif.Props.Mistyped
import Verif.Tx.Word32
import Verif.Props.Machine32
import Verif.Json.Word32
import Verif.Props.Machine32Files
import Verif.Props.Failures
import Verif.Props.OneBuilder
import Verif.Props.ByronByHand
