import Verif.Props.SelfTemplate
import Verif.Props.ModesExamples
/- C112: a search for `f($x)`, to be replaced by `f($x)`, in the file `f(a)`. -/
namespace Refex
set_option autoImplicit false

/-- The file. -/
def keCtx : Ctx := { exCtx with
    text := str "f(a)"
    tree := mdModule (mdCall 10 (exNameAt 20 (str "a")))
    tok := fun i => if i = 3 then some (0, 4) else if i = 10 then some (0, 4) else if i = 11 then some (0, 1) else if i = 20 then some (2, 3) else none }
/-- The world of C93, where the file `f(a)` has places. -/
def kePy : Python := { mdPy with file := fun s => if s = str "f(a)" then some keCtx else mdFile s }

theorem keFits : PythonFits exPython kePy := { mdFits with
  file := by
    intro s c h
    have h : (if s = str "f(a)" then some keCtx else mdFile s) = some c := h
    split at h
    · cases h
      rename_i e
      exact ⟨e.symm, parsed_of_check false (mdModule (mdCall 10 (exNameAt 20 (str "a")))) (by decide +kernel), rfl⟩
    · exact mdFits.file s c h }

/-- The pattern. -/
def keMatcher : Matcher := match kePy.pattern .expr (str "f($x)") with | .ok m => m | .error _ => .anything
/-- The template. -/
def keTemplate : PyTemplate := match kePy.pyTemplate .expr (str "f($x)") with | .ok t => t | .error _ => { template := [], toks := [], metas := [], astMatcher := .anything }
/-- What the options say. -/
def keTemplates : Dict Str CodeTemplate := [(str "__root", keTemplate.code kePy)]
/-- The report: `f(a)` for `f(a)`. -/
def keSub : Substitution where
  matchedSpans := [(str "x", (2, 3)), (str "__root", (0, 4))]
  primaryLabel := str "__root"
  replacements := some [(str "__root", str "f(a)")]
  significant := false
  keySpan := some (0, 4)

theorem kePattern : kePy.pattern .expr (str "f($x)") = .ok keMatcher := rfl
theorem kePyTemplate : kePy.pyTemplate .expr (str "f($x)") = .ok keTemplate := rfl

/-- The attempt at the call. -/
def keTry : MOut := attempt keCtx kePy.depth (fromMatcher keMatcher (keTemplates.map fun e => (e.1, e.1))) [] (mdCall 10 (exNameAt 20 (str "a")))
/-- The match. -/
def keMi : MatchInfo := match keTry with | .ok (some mi, _) => mi | _ => ⟨.bare, [], []⟩
/-- What it remembers. -/
def keKeys : List Key := match keTry with | .ok (some _, ks) => ks | _ => []

theorem keTried : keTry = .ok (some keMi, keKeys) := by
  have h : (match keTry with | .ok (some _, _) => true | _ => false) = true := by decide +kernel
  unfold keMi keKeys
  generalize keTry = o at h ⊢
  split at h
  · rfl
  · cases h

theorem keReported : (match (match pyReports keCtx (kePy.tokInfo (str "f(a)")) (kePy.templates keCtx keTemplates) [keMi] {}, none with
    | Except.error e, _ => Except.error e
    | Except.ok fs, none => Except.ok fs
    | Except.ok _, some (e : MExc) => Except.error e.toExc) with
  | Except.error e => Except.error e
  | Except.ok fs => Except.ok (List.map Found.substitution fs)) = Except.ok [keSub] := by
  have h : (match pyReports keCtx (kePy.tokInfo (str "f(a)")) (kePy.templates keCtx keTemplates) [keMi] {} with
    | Except.ok fs => decide (fs.map Found.substitution = [keSub])
    | Except.error _ => false) = true := by decide +kernel
  generalize pyReports keCtx (kePy.tokInfo (str "f(a)")) (kePy.templates keCtx keTemplates) [keMi] {} = o at h ⊢
  cases o with
  | error e => cases h
  | ok fs => exact congrArg Except.ok (of_decide_eq_true h)

/-- The search finds the call. -/
theorem keFind : (kePy.searcher keMatcher keTemplates).find ⟨str "f(a)", [], []⟩ = .ok [keSub] := by
  have hf : kePy.file (str "f(a)") = some keCtx := rfl
  unfold Python.searcher
  simp only
  rw [hf]
  simp only
  unfold pySearch treeFind
  have ed : keCtx.done = [] := rfl
  have et : keCtx.tree = mdModule (mdCall 10 (exNameAt 20 (str "a"))) := rfl
  rw [ed, et, findLoop_miss (ks := []) rfl]
  simp only [mdModule, Val.children, List.append_nil]
  rw [findLoop_miss (ks := []) rfl]
  simp only [Val.children, List.cons_append, List.nil_append]
  rw [findLoop_miss (ks := []) rfl]
  simp only [Val.children, List.cons_append, List.nil_append]
  rw [findLoop_hit (mi := keMi) (ks := keKeys) keTried]
  rw [findLoop_miss (ks := []) rfl]
  simp only [Val.children, List.append_nil]
  simp only [findLoop]
  exact keReported

/-- The identifier that stands for `$x`. -/
def keWhat (s : Str) : Hole := if s = str "gensym_x" then .named (str "x") else .none

/-- The instance in the file. -/
def keHit : PatternHit := ⟨[0, 0, 0], mdCall 10 (exNameAt 20 (str "a")), [(str "x", exNameAt 20 (str "a"))]⟩

/-- It is one of the pattern's tree, ... -/
theorem keInstance : Instance (holeAt keWhat) (fun _ _ => True) (mdCall 10 (exNameAt 20 (str "gensym_x"))) keHit.node keHit.occ :=
  .node (by decide) (.cons (o := []) (by decide)
    (.node (by decide) (.cons (o := []) (by decide) (.const (by decide) (by decide)) (.ctx .nil)))
    (.cons (by decide) (.list (by decide) (.cons (.named (x := str "x") (by decide) trivial) .nil))
      (.cons (o := []) (by decide) (.list (by decide) .nil) .nil)))

/-- ... where each metavariable stands for an expression of the file. -/
theorem keSimple : SimpleHit kePy keCtx keHit where
  once := by decide
  expressions := by
    intro e he
    rw [List.mem_singleton.1 he]
    exact ⟨by decide +kernel, (2, 3), rfl⟩

/-- The hypotheses of C112 are met: the text is a pattern and a template, and the search reports one edit, ... -/
example : (∃ ps, PlainTokens (mdTpl ++ [mdEnd]) ps) ∧ kePy.pattern .expr (str "f($x)") = .ok keMatcher ∧ kePy.pyTemplate .expr (str "f($x)") = .ok keTemplate ∧
    (kePy.searcher keMatcher [(str "__root", keTemplate.code kePy)]).find ⟨str "f(a)", [], []⟩ = .ok [keSub] :=
  ⟨mdTplPlain, kePattern, kePyTemplate, keFind⟩

/-- ... of which the theorem says this, ... -/
example : ∃ what pat, PatternMeans kePy .expr (str "f($x)") what pat ∧ ((∀ s, what s ≠ .anonymous) → 2 * pat.size + 7 ≤ 40 →
    ∃ c hits, ∃ os : List (Option Substitution), kePy.file (str "f(a)") = some c ∧ PatternHits what pat c.tree hits ∧ [keSub] = os.filterMap id ∧
      ∃ hit ∈ hits, SimpleHit kePy c hit → KeptAs kePy .expr (str "f(a)") hit.node) := by
  obtain ⟨ps, hps⟩ := mdTplPlain
  obtain ⟨what, pat, h1, h2⟩ := C112_keeps keFits (text := str "f($x)") (by decide) rfl hps kePattern kePyTemplate
  refine ⟨what, pat, h1, fun hna hd => ?_⟩
  obtain ⟨c, hits, os, hc, hh, hos, hall⟩ := h2 hna hd (str "f(a)") [] _ _ rfl keFind
  have hmem : some keSub ∈ os := by
    have : keSub ∈ os.filterMap id := by rw [← hos]; exact List.mem_singleton.2 rfl
    obtain ⟨a, ha, hb⟩ := List.mem_filterMap.1 this
    cases a with
    | none => cases hb
    | some a => cases hb; exact ha
  obtain ⟨hit, hhit, hrep⟩ := forall2_mem_right hall hmem
  refine ⟨c, hits, os, hc, hh, hos, hit, hhit, fun hsimple => ?_⟩
  obtain ⟨rs, hrs, hr⟩ := hrep _ rfl hsimple
  cases hrs
  exact hr _ rfl

theorem sameTree_leaf_name (i : Nat) (s : Str) : SameTree (exNameAt i s) (exNameAt i s) :=
  .node rfl fun k n t v hn ht hv hc => by
    match k with
    | 0 => cases ht; cases hv; exact .const (by show Const.pyEq (.str s) (.str s) = true; simp [Const.pyEq, Const.whole?])
    | 1 => cases hn; exact absurd ⟨rfl, rfl⟩ hc
    | k + 2 => cases hn

/-- ... and it is so for the match in the file. -/
example : KeptAs kePy .expr (str "f(a)") keHit.node := by
  refine ⟨str "f(a)", keCtx, mdCall 10 (exNameAt 20 (str "a")), .inl rfl, rfl, ?_, ?_⟩
  · exact ⟨2, .node 3 (str "Expr") [str "value"] [mdCall 10 (exNameAt 20 (str "a"))], rfl, rfl, rfl, rfl⟩
  · refine .node rfl fun k n t v hn ht hv _ => ?_
    match k with
    | 0 => cases ht; cases hv; exact sameTree_leaf_name ..
    | 1 =>
      cases ht; cases hv
      refine .list rfl fun k t v ht hv => ?_
      match k with
      | 0 => cases ht; cases hv; exact sameTree_leaf_name ..
      | k + 1 => cases ht
    | 2 => cases ht; cases hv; exact .list rfl fun k t v ht hv => by cases ht
    | k + 3 => cases hn

end Refex
