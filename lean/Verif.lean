import Verif.Props.Apply
import Verif.Props.Substitution
import Verif.Props.Spans
import Verif.Props.FixedPoint
import Verif.Props.Pragmas
import Verif.Props.Templates
import Verif.Props.Searchers
import Verif.Props.ApproxRegex
import Verif.Props.RegexNumbers
import Verif.Props.AlsoOptions
import Verif.Props.ForceEnable
import Verif.Props.Rewriting
import Verif.Props.Render
import Verif.Props.PragmaText
import Verif.Props.PragmaScopes
import Verif.Props.Sanitize
import Verif.Props.Cli
import Verif.Props.Options
import Verif.Props.Bindings
import Verif.Props.FromDiff
import Verif.Props.MatcherVars
import Verif.Props.TypeFilters
import Verif.Props.Find
import Verif.Props.Once
import Verif.Props.Items
import Verif.Props.Glob
import Verif.Props.AstEq
import Verif.Props.Patterns
import Verif.Props.PatternTokens
import Verif.Props.PatternNames
import Verif.Props.Evaluate
import Verif.Props.AddModule
import Verif.Props.Nav
import Verif.Props.ParseCache
import Verif.Props.Ancestors
import Verif.Props.FirstAncestor
import Verif.Props.Imports
import Verif.Props.Depth
import Verif.Props.Filling
import Verif.Props.SameTrees
import Verif.Props.PyTemplate
import Verif.Props.PyTemplateExamples
import Verif.Props.UniqueifyExamples
import Verif.Props.Disjoint
import Verif.Props.DiffItems
import Verif.Props.NoTemplates
import Verif.Props.PySearch
import Verif.Props.Fixers
import Verif.Props.FixerBuild
import Verif.Props.MatcherSem
import Verif.Props.MatcherSemRec
import Verif.Props.Main
import Verif.Props.MainRun
import Verif.Props.Output
import Verif.Props.Names
import Verif.Props.EvaluateSem
import Verif.Props.SelfReport
import Verif.Props.SanitizeTree
import Verif.Props.SanitizeTreeExamples
import Verif.Props.Layout
import Verif.Props.Crash
import Verif.Props.AstWalk
import Verif.Props.PragmaIter
import Verif.Props.Colour
import Verif.Props.PatternBuild
import Verif.Props.FromFunction
import Verif.Props.BindingsExact
import Verif.Props.Surroundings
import Verif.Props.SurroundingsExamples
import Verif.Props.Restrictions
import Verif.Props.BuiltinRules
import Verif.Props.RuleMeaning
import Verif.Props.BuiltinRulesExamples
import Verif.Props.BuiltinGroups
import Verif.Props.RuleEffects
import Verif.Props.SpecialFixers
import Verif.Props.BuiltinSearch
import Verif.Props.BuiltinSearchTotal
import Verif.Props.BuiltinSearchExamples
import Verif.Props.Termination
import Verif.Props.TerminationExamples
import Verif.Props.Examples
import Verif.Props.ExamplesExamples
import Verif.Props.CompileText
import Verif.Props.ErrorDump
import Verif.Props.NamedFunctions
import Verif.Props.BuildMore
import Verif.Props.Modes
import Verif.Props.ModesTemplate
import Verif.Props.ModesExamples
import Verif.Props.ModesMain
import Verif.Props.RegexMode
import Verif.Props.Literal
import Verif.Props.LiteralExamples
import Verif.Props.LiteralUndo
import Verif.Props.ModesTemplateMore
import Verif.Props.PlacesExamples
import Verif.Props.MatcherModeExamples
import Verif.Props.Iterated
import Verif.Props.FixMode
import Verif.Props.FixModeMain
import Verif.Props.FixModeExamples
import Verif.Props.TemplateErrorsExamples
import Verif.Props.FixTexts
import Verif.Props.FixTextsExamples
import Verif.Props.CommentScopes
import Verif.Props.CommentScopesExamples
import Verif.Props.FixErrors
import Verif.Props.FixErrorsExamples
import Verif.Props.SearchErrors
import Verif.Props.SearchErrorsExamples
import Verif.Props.IteratedModes
import Verif.Props.IteratedModesExamples
import Verif.Props.IteratedWritten
import Verif.Props.IteratedWrittenExamples
import Verif.Props.RewriteString
import Verif.Props.ReTemplateText
import Verif.Props.ReTemplateVersions
import Verif.Props.ReTemplateSub
import Verif.Props.FixEdits
import Verif.Props.FixEditsMain
import Verif.Props.FixEditsExamples
import Verif.Props.ParseFile
import Verif.Props.ParseFileExamples
import Verif.Props.FileNames
import Verif.Props.FileNamesExamples
import Verif.Props.RewriteFile
import Verif.Props.DryRun
import Verif.Props.FileOrder
import Verif.Props.GlobBindings
import Verif.Props.SelfTemplate
import Verif.Props.SelfTemplateExamples
import Verif.Props.MoreSpecific
import Verif.Props.MoreSpecificExamples
import Verif.Props.LiteralOrder
import Verif.Props.Formatting
import Verif.Props.NamesNeeded
import Verif.Props.SameCode
import Verif.Props.Locality
