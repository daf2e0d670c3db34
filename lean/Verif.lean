import Verif.FlagsProps
import Verif.XmlProps
import Verif.ObjProps
import Verif.IterProps
import Verif.MasksProps
import Verif.VectorProps
import Verif.LiteralProps
import Verif.HeapProps
import Verif.OntoProps
import Verif.OntoHeaderProps
import Verif.PrefixMapProps
import Verif.UintTextProps
import Verif.FuncTextProps
import Verif.FuncProps
import Verif.ChangeProps
import Verif.FuncDocProps
import Verif.ReaderProps
import Verif.PrtNumLemmas
import Verif.PrtIndexProps
import Verif.PrtWrite
import Verif.PrtRead
import Verif.PrtLitProps
import Verif.PrtRtLemmas
import Verif.PrtNameLemmas
import Verif.PrtConstrProps
import Verif.PrtSafeProps
import Verif.PrtDocLemmas
import Verif.PrtPopLemmas
import Verif.PrtLoadLemmas
import Verif.PrtDocSpec
import Verif.PrtDocProps
import Verif.PrtStreamProps
import Verif.PrtHandlerSpec
import Verif.PrtHandlerLemmas
import Verif.PrtHandlerProps
import Verif.PrtSessionSpec
import Verif.PrtSessionLemmas
import Verif.PrtSessionProps
import Verif.PrtAnonSpec
import Verif.PrtAnonLemmas
import Verif.PrtAnonDocLemmas
import Verif.PrtAnonProps
import Verif.PrtCutSpec
import Verif.PrtCutLemmas
import Verif.PrtCutProps
import Verif.PrefixMem
import Verif.PrefixMemSpec
import Verif.PrefixMemLemmas
import Verif.PrefixMemOps
import Verif.PrefixMemProps
import Verif.FuncSession
import Verif.FuncSessionSpec
import Verif.FuncSessionLemmas
import Verif.FuncSessionProps
import Verif.Writer
import Verif.WriterSpec
import Verif.WriterProps
import Verif.FuncTellSpec
import Verif.FuncTellLemmas
import Verif.FuncTellProps
import Verif.LastErr
import Verif.LastErrSpec
import Verif.LastErrProps
import Verif.Lib
import Verif.LibSpec
import Verif.LibLemmas
import Verif.LibProps
import Verif.FuncCutSpec
import Verif.FuncCutLex
import Verif.FuncCutParse
import Verif.FuncCutLemmas
import Verif.FuncCutProps
import Verif.Own
import Verif.OwnSpec
import Verif.OwnLemmas
import Verif.OwnOps
import Verif.OwnProps
import Verif.EntId
import Verif.EntIdProps
import Verif.Stats
import Verif.StatsProps
import Verif.HeapOom
import Verif.HeapOomLemmas
import Verif.HeapOomProps
import Verif.StrBuf
import Verif.StrBufSpec
import Verif.StrBufLemmas
import Verif.StrBufProps
import Verif.OntoOom
import Verif.OntoOomSpec
import Verif.OntoOomLemmas
import Verif.OntoOomProps
import Verif.VocabFull
import Verif.VocabFullSpec
import Verif.VocabFullProps
import Verif.Api
import Verif.ApiSpec
import Verif.ApiLemmas
import Verif.ApiProps
import Verif.FuncFault
import Verif.FuncFaultSpec
import Verif.FuncFaultLemmas
import Verif.FuncFaultDoc
import Verif.FuncFaultView
import Verif.FuncFaultLex
import Verif.FuncFaultScan
import Verif.FuncFaultText
import Verif.FuncFaultAt
import Verif.FuncFaultProps
import Verif.FuncRules
import Verif.FuncOwn
import Verif.FuncOwnSpec
import Verif.FuncOwnMem
import Verif.FuncOwnCheck
import Verif.FuncOwnLemmas
import Verif.FuncOwnRun
import Verif.FuncOwnMach
import Verif.FuncOwnProps
import Verif.PrtOwn
import Verif.PrtOwnSpec
import Verif.PrtOwnBase
import Verif.PrtOwnLemmas
import Verif.PrtOwnFrames
import Verif.PrtOwnProps
import Verif.FuncIo
import Verif.FuncIoLemmas
import Verif.FuncIoProps
import Verif.PrefixOom
import Verif.PrefixOomSpec
import Verif.PrefixOomLemmas
import Verif.PrefixOomProps
import Verif.PrtIndexMem
import Verif.PrtIndexMemSpec
import Verif.PrtIndexMemLemmas
import Verif.PrtIndexMemProps
import Verif.Convert
import Verif.ConvertSpec
import Verif.ConvertLemmas
import Verif.ConvertProps
import Verif.PrtOom
import Verif.PrtOomLemmas
import Verif.PrtOomProps
import Verif.Coll
import Verif.CollSpec
import Verif.CollLemmas
import Verif.CollProps
import Verif.PrtIo
import Verif.PrtIoLemmas
import Verif.PrtIoProps
import Verif.FuncGramSpec
import Verif.FuncGramTable
import Verif.FuncGramSound
import Verif.FuncGramInv
import Verif.FuncGramEats
import Verif.FuncGramComplete
import Verif.FuncGramDoc
import Verif.FuncGramProps
import Verif.FuncReSpec
import Verif.FuncReLemmas
import Verif.FuncReScan
import Verif.FuncReProps
import Verif.FuncStdSpec
import Verif.FuncStdTable
import Verif.FuncStdLemmas
import Verif.FuncStdProps
import Verif.FuncWStdLemmas
import Verif.FuncWStdProps
import Verif.TypedSpec
import Verif.TypedLemmas
import Verif.TypedDoc
import Verif.TypedProps
import Verif.PrtTyped
import Verif.PrtTypedProps
import Verif.RewriteToks
import Verif.RewriteLeaves
import Verif.RewriteMeets
import Verif.RewriteSpec
import Verif.RewriteDoc
import Verif.RewriteProps
import Verif.RepoTests
import Verif.PrtNormSpec
import Verif.PrtNormLemmas
import Verif.PrtNormProps
import Verif.IoObj
import Verif.IoObjProps
import Verif.PrtAgainSpec
import Verif.PrtAgainProps
import Verif.PrtFromFuncProps
import Verif.ExamplesProps
import Verif.ExamplesFilterProps
import Verif.ExamplesDocProps
import Verif.LitMemProps
import Verif.ToStringProps
import Verif.PrimMem
import Verif.PrimMemSpec
import Verif.PrimMemLemmas
import Verif.PrimMemProps
import Verif.ExamplesErr
import Verif.ExamplesErrProps
import Verif.Words
import Verif.WordsSpec
import Verif.WordsProps
import Verif.Queries
import Verif.SemSpec
import Verif.SemLemmas
import Verif.SemProps
import Verif.PrtMeanSpec
import Verif.PrtMeanLemmas
import Verif.PrtMeanProps
import Verif.AnonMeanSpec
import Verif.AnonMeanLemmas
import Verif.AnonMeanProps
import Verif.SaysSpec
import Verif.SaysLemmas
import Verif.SaysProps
import Verif.HeardSpec
import Verif.HeardLemmas
import Verif.HeardDoc
import Verif.HeardProps
import Verif.SpokenProps
import Verif.SenseProps
import Verif.AgainProps
import Verif.ApartProps
import Verif.SeriesProps
import Verif.TableTextProps
import Verif.JoinProps
import Verif.MergeProps
import Verif.SemCheck
import Verif.ForgetProps
import Verif.SiftProps
import Verif.PassProps
import Verif.TermsProps
import Verif.WireProps
import Verif.WireReadProps
import Verif.WireGetProps
import Verif.WireWriteProps
import Verif.WireJoinProps
import Verif.MixProps
import Verif.WireUpdateProps
import Verif.MixUpdateProps
