import Verif.Props.IteratedModes
import Verif.Props.FixModeMain
/- C98: what is written with `--iterate`. -/
namespace Refex
set_option autoImplicit false

/-- The edits of iterated results lie in the file if those of what is found do, and the parts of the file that this belongs to. -/
theorem iterated_inside {valid : Str → Prop} {force : Bool} {pragmas : Str → List Pragma} {Ps : List (Str → List Substitution → Prop)} {n : Nat} {content : Str}
    {out : List Substitution} (h : IteratedResult valid (FoundBy force pragmas Ps) n content out)
    (hin : ∀ P ∈ Ps, ∀ l, P content l → ∀ s ∈ l, (∀ e ∈ editsOf s, e.stop ≤ content.length) ∧ ∀ sp, s.keySpan = some sp → sp.2 ≤ content.length) :
    ∀ e ∈ allEdits out, e.stop ≤ content.length := by
  obtain ⟨subs, gs, outs, hfound, ⟨hg1, hg2, _⟩, hit, rfl⟩ := h
  intro e he
  obtain ⟨s, hs, he⟩ := List.mem_flatMap.1 he
  obtain ⟨out, hout, hs⟩ := List.mem_flatten.1 hs
  obtain ⟨gr, hgr, hiter⟩ := forall2_mem_right hit hout
  have hsubs : ∀ x ∈ gr.2, x ∈ subs := fun x hx => hg1 ▸ List.mem_flatMap.2 ⟨gr, hgr, hx⟩
  have place : ∀ x ∈ subs, (∀ e ∈ editsOf x, e.stop ≤ content.length) ∧ ∀ sp, x.keySpan = some sp → sp.2 ≤ content.length := by
    intro x hx
    obtain ⟨P, hP, l, hPl, hxl⟩ := foundBy_mem hfound x hx
    exact hin P hP l hPl x hxl
  rcases iterated_edits hiter hs he with h | h
  · exact (place s (hsubs s h)).1 e he
  · obtain ⟨hne', hk⟩ := hg2 gr hgr
    cases hx : gr.2 with
    | nil => exact absurd hx hne'
    | cons x xs =>
      have hxm : x ∈ gr.2 := hx ▸ List.mem_cons_self ..
      exact (place x (hsubs x hxm)).2 _ ((hk x hxm).trans h)

/-- **C98**, in a file: with `--iterate` and templates that have a text, what a run in a mode of patterns writes into a file is its text (with universal newlines) with
the edits of the iterated reports, and nothing else changed. -/
theorem C98_patterns_written {g : Grammar} {py : Python} (hfit : PythonFits g py) (hspan : ∀ s c, py.file s = some c → ∀ i sp, c.tok i = some sp → sp.2 ≤ s.length)
    {w : World} (hw : w.parseAst = py.parseAst) {o : Options} {r : Runner}
    (hr : runnerFromOptions w py.modes o = .ok r) {kind : PatternKind} (hkind : PatternMode o.mode kind) {sm : Str} (hsm : SyntaxInEffect o.mode o.subMode sm)
    (hne : o.searchReplace ≠ []) (hwf : ∀ sr ∈ o.searchReplace, sr.sub.WF)
    (hplain : ∀ sr ∈ o.searchReplace, ∀ text toks, sr.pattern = some text → py.tokens (withNewline text) = some toks → ∃ ps, PlainTokens toks ps)
    (hrt : ∀ s x, r.enc.encode s = some x → r.enc.decode x = some s) :
    ∃ qs, Forall2 (QueryOf py kind sm) o.searchReplace qs ∧ ((∀ q ∈ qs, 2 * q.tree.size + 7 ≤ py.depth) → (∀ q ∈ qs, ∀ l u, q.templates.get? l = some u → u.text ≠ []) →
      ∀ faults fs q b b' old, fs q = some b → r.enc.decode b = some old → Rewritten r faults fs q b' →
        AlsoHolds o (universalNewlines old) ∧ ∃ out es new,
          IteratedResult (fun t => py.file t ≠ none) (FoundBy o.forceEnable py.pragmas (qs.map fun q => SearchResult py q.what q.tree q.templates))
            (o.iterate.getD 0) (universalNewlines old) out ∧
          es.Perm (allEdits out) ∧ r.enc.decode b' = some new ∧ Spliced 0 (universalNewlines old) es new) := by
  obtain ⟨qs, h1, h2⟩ := C98_patterns hfit hw hr hkind hsm hne hwf hplain
  refine ⟨qs, h1, fun hd hts faults fs q b b' old hold hdec hnew => ?_⟩
  have h4 := h2 hd
  have hin : ∀ content ms, r.find content (r.shorten q) = .ok ms → ∀ e ∈ allEdits ms, e.stop ≤ content.length := by
    intro content ms hms
    refine iterated_inside ((h4 content (r.shorten q)).2.2 ms hms).2.2 fun P hP l hl s hs => ?_
    obtain ⟨q, hq, rfl⟩ := List.mem_map.1 hP
    obtain ⟨c, hits, os, hc, _, rfl, hall⟩ := hl
    obtain ⟨a, ha, hb⟩ := List.mem_filterMap.1 hs
    cases a with
    | none => cases hb
    | some a =>
      cases hb
      obtain ⟨hit, _, hrep⟩ := forall2_mem_right hall ha
      refine ⟨edits_inside (hspan content c hc) (hts q hq) hrep, fun sp hsp => ?_⟩
      obtain ⟨i, hi⟩ := hrep.located sp hsp
      exact hspan content c hc i sp hi
  obtain ⟨ms, es, new, e1, e2, e3, e4⟩ := C35_normalised r faults fs q b b' old hrt hold hdec hin hnew
  obtain ⟨k1, _, k2⟩ := (h4 _ _).2.2 ms e1
  exact ⟨k1, ms, es, new, k2, e2, e3, e4⟩

/-- **C98**, in a file, mode `py` with `--iterate`. -/
theorem C98_matchers_written {py : Python} {C : Compiler} (hC : ∀ ty fs, C.fields ty = some fs → fs.Nodup) (hpy : py.matcher = py.compile C)
    (hfile : ∀ s c, py.file s = some c → c.text = s ∧ FileFits c) {w : World} (hw : w.parseAst = py.parseAst)
    {o : Options} {r : Runner} (hr : runnerFromOptions w py.modes o = .ok r) (hmode : o.mode = str "py") {sm : Str} (hsm : SyntaxInEffect o.mode o.subMode sm)
    (hne : o.searchReplace ≠ []) (hwf : ∀ sr ∈ o.searchReplace, sr.sub.WF) (hd : 2 ≤ py.depth)
    (hrt : ∀ s x, r.enc.encode s = some x → r.enc.decode x = some s) :
    ∃ qs, Forall2 (MatcherQueryOf py C sm) o.searchReplace qs ∧
      ((∀ q ∈ qs, ∀ s c, py.file s = some c → GroupsUnreserved c q.1) → (∀ q ∈ qs, ∀ l u, q.2.get? l = some u → u.text ≠ []) →
        ∀ faults fs q b b' old, fs q = some b → r.enc.decode b = some old → Rewritten r faults fs q b' →
          AlsoHolds o (universalNewlines old) ∧ ∃ out es new,
            IteratedResult (fun t => py.file t ≠ none)
              (FoundBy o.forceEnable py.pragmas (qs.map fun (q : Matcher × Dict Str CodeTemplate) => MatcherResult py q.1 q.2)) (o.iterate.getD 0)
              (universalNewlines old) out ∧
            es.Perm (allEdits out) ∧ r.enc.decode b' = some new ∧ Spliced 0 (universalNewlines old) es new) := by
  obtain ⟨qs, h1, h2⟩ := C98_matchers hC hpy hw hr hmode hsm hne hwf hd
  refine ⟨qs, h1, fun hg hts faults fs q b b' old hold hdec hnew => ?_⟩
  have h4 := h2 hg
  have hin : ∀ content ms, r.find content (r.shorten q) = .ok ms → ∀ e ∈ allEdits ms, e.stop ≤ content.length := by
    intro content ms hms
    refine iterated_inside ((h4 content (r.shorten q)).2.2 ms hms).2.2 fun P hP l hl s hs => ?_
    obtain ⟨q, hq, rfl⟩ := List.mem_map.1 hP
    obtain ⟨c, rs, os, hc, _, rfl, hall, hplaces⟩ := hl
    obtain ⟨a, ha, hb⟩ := List.mem_filterMap.1 hs
    cases a with
    | none => cases hb
    | some a =>
      cases hb
      obtain ⟨rp, hrp, hrep⟩ := forall2_mem_right hall ha
      obtain ⟨htext, hff⟩ := hfile content c hc
      have := edits_in_text (hts q hq) (hplaces hff rp hrp) hrep
      rw [htext] at this
      refine ⟨this, fun sp hsp => ?_⟩
      obtain ⟨i, hi⟩ := hrep.located sp hsp
      have := (hff.tokens i sp hi).2
      rw [htext] at this
      exact this
  obtain ⟨ms, es, new, e1, e2, e3, e4⟩ := C35_normalised r faults fs q b b' old hrt hold hdec hin hnew
  obtain ⟨k1, _, k2⟩ := (h4 _ _).2.2 ms e1
  exact ⟨k1, ms, es, new, k2, e2, e3, e4⟩

end Refex
