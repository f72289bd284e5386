import Verif.BinProt.Bytes
import Verif.BinProt.Prog
import Verif.BinProt.Prim
import Verif.BinProt.PrimLemmas
import Verif.BinProt.PrimSpec
import Verif.BinProt.PrimCases
import Verif.BinProt.PrimProps
import Verif.BinProt.Serde
import Verif.BinProt.SerdeSpec
import Verif.BinProt.SerdeLemmas
import Verif.BinProt.SerdeWire
import Verif.BinProt.SerdeProps
import Verif.BinProt.IO
import Verif.BinProt.IOLemmas
import Verif.BinProt.IOProps
import Verif.BinProt.Loose
import Verif.BinProt.LooseSpec
import Verif.BinProt.LooseLemmas
import Verif.BinProt.LooseGram
import Verif.BinProt.LooseTyped
import Verif.BinProt.LooseProps
import Verif.Merkle.Model
import Verif.Merkle.Spec
import Verif.Merkle.Arith
import Verif.Merkle.Cache
import Verif.Merkle.Insert
import Verif.Merkle.Path
import Verif.Merkle.History
import Verif.Merkle.Commit
import Verif.Merkle.Props
import Verif.Consensus.Model
import Verif.Consensus.Spec
import Verif.Consensus.Lemmas
import Verif.Consensus.Density
import Verif.Consensus.Props
import Verif.Frontier.Model
import Verif.Frontier.Spec
import Verif.Frontier.Lemmas
import Verif.Frontier.Props
import Verif.Frontier.Processor
import Verif.Ledger.Model
import Verif.Ledger.Spec
import Verif.Ledger.Lemmas
import Verif.Ledger.Props
import Verif.Base.Text
import Verif.Base.TextSpec
import Verif.Base.TextLemmas
import Verif.Base.Amount
import Verif.Base.AmountSpec
import Verif.Base.AmountProps
import Verif.Hash.RO
import Verif.Hash.ROLemmas
import Verif.Hash.ROSpec
import Verif.Hash.ROProps
import Verif.Hash.Types
import Verif.Hash.Shape
import Verif.Hash.AccountSpec
import Verif.Hash.AccountProps
import Verif.Hash.StateSpec
import Verif.Hash.StateProps
import Verif.Hash.Command
import Verif.Hash.CommandSpec
import Verif.Hash.CommandProps
import Verif.Hash.LegacyState
import Verif.Hash.LegacyStateProps
import Verif.Json.Bad
import Verif.Json.Block
import Verif.Json.BlockProps
import Verif.Json.Eqns
import Verif.Json.LeafLemmas
import Verif.Json.Lemmas
import Verif.Json.Model
import Verif.Json.Norm
import Verif.Json.Outcome
import Verif.Json.Radix
import Verif.Json.Sample
import Verif.Json.Spec
import Verif.Json.SpecText
import Verif.Json.Text
import Verif.Json.TextLemmas
import Verif.Json.TextProps
import Verif.GraphQL.Docs
import Verif.GraphQL.Lemmas
import Verif.GraphQL.Model
import Verif.GraphQL.Props
import Verif.GraphQL.Spec
import Verif.Json.Reread
import Verif.Json.RereadProps
import Verif.GraphQL.BestChain
import Verif.GraphQL.BestChainLemmas
import Verif.GraphQL.BestChainProps
import Verif.GraphQL.BestChainSpec
import Verif.Secrets.Model
import Verif.Secrets.Props
import Verif.Secrets.Spec
import Verif.GraphQL.AcceptedLemmas
import Verif.GraphQL.AcceptedProps
import Verif.GraphQL.AcceptedSpec
import Verif.GraphQL.BestChainAccepted
import Verif.GraphQL.ChecksumProps
import Verif.Frontier.Poll
import Verif.Frontier.PollProps
import Verif.Frontier.PollSpec
import Verif.Wallet.Query
import Verif.Wallet.QueryProps
import Verif.Wallet.Spec
import Verif.Crawler.BlockDocs
import Verif.Crawler.Model
import Verif.Crawler.Props
import Verif.BinProt.ReaderTool
import Verif.BinProt.ReaderToolProps
import Verif.BinProt.LayoutDoc
import Verif.BinProt.LayoutDocLemmas
import Verif.BinProt.LayoutDocProps
import Verif.BinProt.LayoutDocSpec
import Verif.Genesis.Model
import Verif.Genesis.Props
import Verif.Genesis.RadixProps
import Verif.Genesis.RealProps
import Verif.Genesis.Spec
import Verif.Hash.NoPanicProps
import Verif.Hash.Sha256
import Verif.Genesis.BlockTime
import Verif.Genesis.BlockTimeProps
import Verif.Hash.Sha256Props
import Verif.Block.FitsLemmas
import Verif.Block.Lemmas
import Verif.Block.Model
import Verif.Block.Props
import Verif.Block.Samples
import Verif.Block.Spec
import Verif.Block.Codec
import Verif.Block.Form
import Verif.Block.FormWrite
import Verif.Account.Lemmas
import Verif.Account.Model
import Verif.Account.Props
import Verif.Account.Spec
import Verif.Ledger.AccountModel
import Verif.Ledger.AccountProps
import Verif.Merkle.Collision
import Verif.Merkle.CollisionProps
import Verif.Block.JsonLemmas
import Verif.Block.JsonModel
import Verif.Block.JsonProps
import Verif.BinProt.Adapters
import Verif.Json.HexVec
import Verif.Json.StrConv
import Verif.Status.Model
import Verif.Status.Props
import Verif.Status.Spec
import Verif.Hash.LayoutLemmas
import Verif.Hash.LayoutProps
import Verif.Hash.LayoutSpec
import Verif.Frontier.Query
import Verif.Frontier.QueryProps
import Verif.Log.Model
import Verif.Log.Props
import Verif.P2P.Model
import Verif.P2P.Props
import Verif.Merkle.Release
import Verif.Merkle.ReleaseProps
import Verif.Curve.Model
import Verif.Curve.Props
import Verif.Page.PrevHash
import Verif.Page.PrevHashProps
import Verif.GraphQL.ConstantProps
import Verif.Json.Prefix
import Verif.Json.PrefixProps
import Verif.Page.PatchProps
import Verif.Page.RequestSpec
import Verif.Page.Settings
import Verif.Page.SettingsProps
import Verif.Page.System
import Verif.Page.SystemProps
import Verif.Wallet.Call
import Verif.Wallet.CallProps
import Verif.Account.SizeProps
import Verif.BinProt.Words
import Verif.BinProt.WordsLemmas
import Verif.BinProt.WordsProps
import Verif.BinProt.WordsSpec
import Verif.Json.DocLemmas
import Verif.Json.DocNumbers
import Verif.Json.DocPrint
import Verif.Json.DocProps
import Verif.Json.DocText
import Verif.Json.DocValues
import Verif.Json.Grammar
import Verif.Json.StrText
import Verif.Json.SchemaLemmas
import Verif.Json.SchemaProps
import Verif.Json.SchemaSpec
import Verif.Json.ValueLemmas
import Verif.Json.SameLemmas
import Verif.Json.SameSpec
import Verif.Proto.CutLemmas
import Verif.Proto.CutProps
import Verif.Proto.MessageLemmas
import Verif.Proto.Model
import Verif.Proto.Page
import Verif.Proto.PageProps
import Verif.Proto.Props
import Verif.Proto.ReadLemmas
import Verif.Proto.Spec
import Verif.Proto.TextLemmas
import Verif.Proto.WriteLemmas
import Verif.Json.Base64Lemmas
import Verif.Json.Base64Spec
import Verif.Json.Pretty
import Verif.Secrets.TextProps
import Verif.Status.Line
import Verif.Status.LineProps
import Verif.Vectors.Basics
import Verif.Vectors.Block
import Verif.BinProt.LayoutText
import Verif.Consensus.Agreement
import Verif.BinProt.Agree
import Verif.BinProt.AgreeLemmas
import Verif.BinProt.AgreeRead
import Verif.BinProt.AgreeSpec
import Verif.Layouts.Check
import Verif.Layouts.Differ
import Verif.Layouts.DifferCoinbase
import Verif.Layouts.DifferCommands
import Verif.Layouts.DifferFailed
import Verif.Layouts.ExternalTransition
import Verif.Layouts.Props
import Verif.Layouts.ProtocolState
import Verif.Layouts.Samples
import Verif.Layouts.SnarkWork
import Verif.Layouts.Spec
import Verif.BinProt.AgreeAvoids
import Verif.Json.Aborts
import Verif.Json.AbortsLemmas
import Verif.Json.AbortsProps
import Verif.Json.AbortsSpec
import Verif.GraphQL.AbortsLemmas
import Verif.GraphQL.AbortsProps
import Verif.GraphQL.AbortsSpec
import Verif.Merkle.VerifyProps
import Verif.Merkle.VerifySpec
import Verif.BinProt.ElasticProps
import Verif.BinProt.ElasticSpec
import Verif.Crawler.List
import Verif.Crawler.ListProps
import Verif.BinProt.SerdeAll
import Verif.BinProt.SerdeAllProps
import Verif.Frontier.Signed
import Verif.Frontier.SignedProps
import Verif.Hash.Display
import Verif.Hash.DisplayProps
import Verif.Page.Pay
import Verif.Page.PayProps
import Verif.Page.PaySpec
import Verif.Vectors.Trees
import Verif.Derive.Lemmas
import Verif.Derive.Model
import Verif.Derive.Props
import Verif.Derive.Spec
import Verif.Frontier.Berkeley
import Verif.Frontier.BerkeleyProps
import Verif.Frontier.BerkeleySpec
import Verif.Frontier.Requests
import Verif.Frontier.RequestsProps
import Verif.Frontier.RequestsSpec
import Verif.Frontier.Mainnet
import Verif.Frontier.MainnetLemmas
import Verif.Frontier.MainnetProps
import Verif.Frontier.MainnetSpec
import Verif.Frontier.MainnetDocs
import Verif.Frontier.MainnetDocsProps
