import Verif.Model.Cli
/- Specification of how --match, --sub and --named-sub go together. -/
namespace Refex
set_option autoImplicit false

/-- `GroupSubs opts d`: the substitution options `opts`, all for one pattern, give the substitutions `d`: none; or a single --sub,
for the whole match; or any number of --named-sub with different names (a --named-sub for the whole match must be the last). -/
inductive GroupSubs : List Opt → Dict Str Str → Prop
  | nothing : GroupSubs [] []
  | whole (v : Str) : GroupSubs [.sub v] [(rootName, v)]
  | named (d : Dict Str Str) (hne : d ≠ []) (hnames : d.WF) (heq : ∀ e ∈ d, '=' ∉ e.1)
      (hroot : ∀ e ∈ d.dropLast, e.1 ≠ rootName) :
      GroupSubs (d.map fun e => .namedSub (e.1 ++ '=' :: e.2)) d

/-- A pattern with the substitution options after it. -/
structure OptGroup where
  pattern : Str
  subs : List Opt

/-- The options of a group as written. -/
def OptGroup.source (g : OptGroup) : List Opt := .matchOpt g.pattern :: g.subs

/-- `Pairing opts out`: the options are substitution options for the first pattern, written before it, then the patterns, each
followed by its substitution options; `out` has one entry per pattern, in order, with all its substitution options (or one
entry without pattern, if there is no pattern). -/
inductive Pairing : List Opt → List SearchReplace → Prop
  | noPattern (lead : List Opt) (d : Dict Str Str) (h : GroupSubs lead d) : Pairing lead [⟨none, d⟩]
  | patterns (lead : List Opt) (g : OptGroup) (gs : List OptGroup) (d : Dict Str Str) (ds : List (Dict Str Str))
      (hlead : ∀ o ∈ lead, ∀ v, o ≠ .matchOpt v) (h : GroupSubs (lead ++ g.subs) d)
      (hlen : ds.length = gs.length) (hs : ∀ p ∈ gs.zip ds, GroupSubs p.1.subs p.2) :
      Pairing (lead ++ (g :: gs).flatMap OptGroup.source)
        (⟨some g.pattern, d⟩ :: (gs.zip ds).map fun p => ⟨some p.1.pattern, p.2⟩)

end Refex
