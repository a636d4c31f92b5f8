import Verif.Text
import Verif.Lexical
import Verif.LexSpec
import Verif.LexLemmas
import Verif.PropsLexical
import Verif.Renderer
import Verif.RenderSpec
import Verif.RenderLemmas
import Verif.OccLemmas
import Verif.PropsRender
import Verif.Value
import Verif.LayoutSpec
import Verif.LayoutLemmas
import Verif.Cond
import Verif.CondSpec
import Verif.CondLemmas
import Verif.CondLemmas2
import Verif.PropsCond
import Verif.Methods
import Verif.ArithSpec
import Verif.ArithLemmas
import Verif.PropsArith
import Verif.Exprs
import Verif.ExprSpec
import Verif.ExprLemmas
import Verif.ProjLemmas
import Verif.PropsExprs
import Verif.PropsExprs2
import Verif.Patterns
import Verif.PatternSpec
import Verif.PatternLemmas
import Verif.PropsPatterns
import Verif.Clauses
import Verif.ClauseSpec
import Verif.ClauseLemmas
import Verif.PropsClauses
import Verif.Builder
import Verif.BuilderSpec
import Verif.BuilderLemmas
import Verif.BuilderSteps
import Verif.BuilderText
import Verif.Interfaces
import Verif.PropsBuilder
import Verif.BuilderErrors
import Verif.PropsErrors
import Verif.PropsWhere
import Verif.Slices
import Verif.SliceLemmas
import Verif.PropsForks
import Verif.BracketSpec
import Verif.BracketLemmas
import Verif.ApiSpec
import Verif.ApiLemmas
import Verif.ApiLemmas2
import Verif.ApiLemmas3
import Verif.ApiLemmas4
import Verif.ApiLemmas5
import Verif.PropsBrackets
import Verif.Shortcuts
import Verif.PropsShortcuts
import Verif.Floats
import Verif.FloatSpec
import Verif.FloatLemmas
import Verif.PropsFloats
import Verif.ReadSpec
import Verif.ReadLemmas
import Verif.FrozenLemmas
import Verif.ReadLemmas2
import Verif.DenoteSpec
import Verif.DenoteLemmas
import Verif.DenoteLemmas2
import Verif.DenoteLemmas3
import Verif.DenoteLemmas4
import Verif.DenoteLemmas5
import Verif.DenoteLemmas6
import Verif.PropsRead
import Verif.StmtSpec
import Verif.PatMeansSpec
import Verif.MeansSpec
import Verif.MeansLemmas
import Verif.PatternReadLemmas
import Verif.RelReadLemmas
import Verif.SegLemmas
import Verif.DenoteLemmas7
import Verif.ClauseReadLemmas
import Verif.ChangeReadLemmas
import Verif.StatementReadLemmas
import Verif.PropsStatements
import Verif.PropsReadPatterns
import Verif.PropsReadShortcuts
import Verif.BuilderMem
import Verif.BuilderMemLemmas
import Verif.BuilderMemExec
import Verif.BuilderMemCalls
import Verif.BuilderMemBuild
import Verif.BuilderLive
import Verif.BuilderMemLines
import Verif.PropsBuilderForks
import Verif.PropsKeys
import Verif.CaseMem
import Verif.PropsCaseForks
import Verif.CondExact
import Verif.PropsExact
import Verif.PropsExactCase
import Verif.PropsTyped
import Verif.PropsSettle
import Verif.PropsSettleRead
import Verif.PropsSetExact
import Verif.PropsLeftovers
import Verif.PropsErrorsExact
import Verif.PropsReuse
import Verif.PropsUnion
import Verif.PropsScope
import Verif.PropsOpaque
import Verif.PropsFirstError
import Verif.PropsNil
import Verif.PropsPatternCalls
import Verif.ResultAccept
import Verif.PropsResults
import Verif.ZeroValues
import Verif.PropsZero
import Verif.PropsForksExact
import Verif.PropsChainForks
import Verif.PropsCaseUses
import Verif.PropsLeftovers2
import Verif.ReplayTests1
import Verif.ReplayTests2
import Verif.ReplayTests3
import Verif.ReplayTests4
import Verif.ReplayTests5
import Verif.PropsLive
import Verif.PropsInjection
import Verif.PropsContinuations
import Verif.PropsTogether
import Verif.PropsObjects
import Verif.PropsBytes
import Verif.PropsNames
import Verif.PropsLiterals
import Verif.PropsMemory
import Verif.PropsBytesRender
import Verif.PropsFollow
import Verif.PropsCovers
