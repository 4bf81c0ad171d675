import Verif.Proof.TemplateUnique
import Verif.Proof.Segments
/-! # C47: unnecessary template expressions -/
namespace Tsgolint.Template
open Tsgolint.StringLiteral (utf16)
open Tsgolint.Fixer (Fix Bytes Disjoint editAll Seg ascii)

/-- The text of a string literal, escaped, denotes in a template what it denoted in the literal. -/
theorem C47_escape (q : Char) (raw : Text) (v : List Val) (h : Reads noHoles (.str q) (chars raw) v) :
    Reads noHoles .template (chars (escapeTemplateRawText raw)) v :=
  reads_escaped h [] rfl

/-- The text of a template is left as it is by escaping. -/
theorem C47_escape_template (raw : Text) (v : List Val) (h : Reads noHoles .template (chars raw) v) : escapeTemplateRawText raw = raw :=
  escape_template h [] rfl

theorem chars_dollar (t : Text) : chars (H := H) (t.dropLast ++ ['\\', '$']) = (chars t).dropLast ++ [.ch '\\', .ch '$'] := by
  simp [chars, List.map_dropLast]

/-- The value of a literal is that of the text put in its place. -/
theorem replacement_reads {l : Literal} {w : List Val} (hw : WellFormed (.literal l)) (hd : Denotes (.literal l) w) (b : Bool) :
    Reads Denotes .template (chars (replacementText l b)) w := by
  have base : Reads Denotes .template (chars (escapeTemplateRawText (literalText l))) w := by
    cases hd with
    | str h => exact reads_escaped h [] rfl
    | template h => rw [literalText, escapeTemplateRawText, escape_template h [] rfl]; exact reads_chars_any h
    | @number t =>
      refine reads_escaped (q := '\n') (reads_plain fun c hc => ?_) [] rfl
      have := hw.2 c hc
      refine ⟨?_, ?_⟩
      · rintro rfl; revert this; decide
      · simp only [List.mem_cons, List.not_mem_nil, or_false]
        rintro (rfl | rfl | rfl) <;> (revert this; decide)
    | @regex t => exact reads_escaped (q := '\n') (reads_regex hw) [] rfl
  unfold replacementText
  simp only
  split
  · rename_i hc
    simp only [Bool.and_eq_true] at hc
    rw [chars_dollar]
    exact reads_escape_dollar base ((endsDollar_chars _).2 hc.2)
  · exact base

theorem replacement_closed {l : Literal} (hc : Closed (literalText l)) (b : Bool) : Closed (replacementText l b) := by
  unfold replacementText
  simp only
  split
  · constructor
    · rintro ⟨a, ha⟩
      have := congrArg List.reverse ha
      simp at this
    · rintro ⟨a, ha⟩
      have := congrArg List.reverse ha
      simp at this
  · exact closed_escape hc

theorem replacement_dollar {l : Literal} : ¬ EndsDollar (chars (H := H) (replacementText l true)) := by
  unfold replacementText
  simp only [Bool.true_and]
  split
  · rename_i hc
    rw [chars_dollar]
    exact not_endsDollar_escaped ((endsDollar_chars _).2 hc)
  · rename_i hc
    rw [endsDollar_chars]
    exact hc

theorem begins_brace {t : Text} (h : Begins (H := H) (· = '{') (chars t)) : startsWithBrace t = true := by
  obtain ⟨c, s, he, rfl⟩ := h
  obtain ⟨t', rfl, _⟩ := chars_cons he.symm
  rfl

theorem begins_nested {f : Nat → H} {raw : Text} {spans : List (Nat × Text)} (h : Begins (· = '{') (nestedText f raw spans)) :
    raw ≠ [] ∧ startsWithBrace raw = true := by
  have key : Begins (H := H) (· = '{') (chars raw) := by
    cases spans with
    | nil => exact h
    | cons x spans =>
      obtain ⟨i, r⟩ := x
      rcases begins_append h with h | ⟨_, c, t, he, _⟩
      · exact h
      · simp at he
  refine ⟨?_, begins_brace key⟩
  rintro rfl
  obtain ⟨c, s, he, _⟩ := key
  simp [chars] at he

theorem nested_reads {head : Text} {spans : List (Nat × Text)} {w : List Val} (h : Reads leftAlone .template (nestedText id head spans) w) :
    Reads Denotes .template (nestedText .keep head spans) w := by
  rw [← map_nested]
  refine reads_map _ ?_ h
  intro i w hw
  rw [show w = [.hole i] from hw]
  exact .keep

/-- The part of a template after the text `raw`. -/
def after : List Span → List (Option Fixed) → List (Sym Interp)
  | [], _ => []
  | sp :: rest, fixes => match fixes.head?.join with
    | some f => f.content ++ render sp.raw rest fixes.tail
    | none => .hole sp.expr :: render sp.raw rest fixes.tail

theorem render_eq (raw : Text) (spans : List Span) (fixes : List (Option Fixed)) :
    ∃ raw', render raw spans fixes = chars raw' ++ after spans fixes ∧
      (raw' = raw ∨ (raw' = raw.dropLast ++ ['\\', '$'] ∧ ∃ f sp rest, spans = sp :: rest ∧ fixes.head?.join = some f ∧ f.escapePrev = true)) := by
  cases spans with
  | nil => exact ⟨raw, by simp [render, after], .inl rfl⟩
  | cons sp rest =>
    cases hf : fixes.head?.join with
    | none => exact ⟨raw, by simp [render, after, hf], .inl rfl⟩
    | some f =>
      cases he : f.escapePrev with
      | false => exact ⟨raw, by simp [render, after, hf, he], .inl rfl⟩
      | true => exact ⟨raw.dropLast ++ ['\\', '$'], by simp [render, after, hf, he], .inr ⟨rfl, f, sp, rest, rfl, rfl, he⟩⟩

theorem chosen_cons {fixes : List (Option Fixed)} {x : Option Fixed} {all : List (Option Fixed)} (h : Chosen fixes (x :: all)) :
    (∀ f, fixes.head?.join = some f → x = some f) ∧ Chosen fixes.tail all := by
  obtain ⟨hl, hc⟩ := h
  cases fixes with
  | nil => simp at hl
  | cons y ys =>
    refine ⟨fun f hf => ?_, by simpa using hl, fun i f hf => ?_⟩
    · have := hc 0 f (by simpa using hf)
      simpa using this
    · have := hc (i + 1) f (by simpa using hf)
      simpa using this

theorem joins_text {t : Text} {b : List (Sym H)} (hc : Closed t) (hd : endsWithUnescapedDollarSign t = true → ¬ Begins (· = '{') b) :
    Joins (chars t) b :=
  ⟨fun h => hd ((endsDollar_chars t).1 h), fun h => absurd ((endsNull_chars t).1 h) hc.1, fun h => absurd ((endsCR_chars t).1 h) hc.2⟩

theorem joins_escaped {t : Text} {b : List (Sym H)} (hd : endsWithUnescapedDollarSign t = true) : Joins (chars (t.dropLast ++ ['\\', '$'])) b := by
  refine ⟨fun h => ?_, fun ⟨r, h⟩ => ?_, fun ⟨r, h⟩ => ?_⟩
  · rw [chars_dollar] at h
    exact absurd h (not_endsDollar_escaped ((endsDollar_chars t).2 hd))
  · simp [chars] at h
  · simp [chars] at h

/-- The last step: the text before the span is put in front. -/
theorem put_front {raw : Text} {va vb : List Val} {b : List (Sym Interp)} {esc next : Bool} (hc : Closed raw)
    (ha : Reads Denotes .template (chars raw) va) (hb : Reads Denotes .template b vb)
    (he : esc = (next && endsWithUnescapedDollarSign raw)) (hn : Begins (· = '{') b → next = true) :
    Reads Denotes .template (chars (if esc then raw.dropLast ++ ['\\', '$'] else raw) ++ b) (va ++ vb) := by
  by_cases h : esc = true
  · rw [if_pos h]
    rw [he, Bool.and_eq_true] at h
    refine reads_append ?_ hb (joins_escaped h.2)
    rw [chars_dollar]
    exact reads_escape_dollar ha ((endsDollar_chars _).2 h.2)
  · rw [if_neg h]
    refine reads_append ha hb (joins_text hc ?_)
    intro hd hbg
    exact h (by rw [he, hn hbg, hd]; rfl)

theorem preserves (spans : List Span) (hs : ∀ sp ∈ spans, SpanOK sp) :
    ∀ (raw : Text) (v : List Val) (fixes : List (Option Fixed)), Closed raw → Reads Denotes .template (original raw spans) v →
      Chosen fixes (checkSpans raw spans).2 →
      Reads Denotes .template (render raw spans fixes) v ∧ (Begins (· = '{') (after spans fixes) → (checkSpans raw spans).1 = true) := by
  induction spans with
  | nil =>
    intro raw v fixes hc hr _
    exact ⟨by simpa [original, render] using hr, fun ⟨c, t, he, _⟩ => by simp [after] at he⟩
  | cons sp rest ih =>
    intro raw v fixes hc hr hch
    have hsp := hs sp (by simp)
    have ih := ih fun x hx => hs x (by simp [hx])
    simp only [original, render, List.head?_nil, Option.join_none, List.tail_nil] at hr
    obtain ⟨va, w, vs, rfl, h1, h2, h3⟩ := reads_split hr
    have hall : ∃ x, (checkSpans raw (sp :: rest)).2 = x :: (checkSpans sp.raw rest).2 := by
      simp only [checkSpans]
      cases sp.expr <;> exact ⟨_, rfl⟩
    obtain ⟨x, hx⟩ := hall
    rw [hx] at hch
    obtain ⟨hhead, htail⟩ := chosen_cons hch
    obtain ⟨ihr, ihb⟩ := ih sp.raw vs fixes.tail hsp.raw h3 htail
    -- what `next'` says about the text after the interpolation
    have hnext : Begins (· = '{') (render sp.raw rest fixes.tail) →
        (if sp.raw ≠ [] then startsWithBrace sp.raw else (checkSpans sp.raw rest).1) = true := by
      intro hb
      obtain ⟨raw', he, hraw'⟩ := render_eq sp.raw rest fixes.tail
      rw [he] at hb
      rcases begins_append hb with hb | ⟨hnil, hb⟩
      · have hb' : Begins (H := Interp) (· = '{') (chars sp.raw) := by
          rcases hraw' with rfl | ⟨rfl, _⟩
          · exact hb
          · rw [chars_dollar] at hb
            exact begins_dropLast (by decide) hb
        rw [if_pos]
        · exact begins_brace hb'
        · intro h0
          obtain ⟨c, t, he, _⟩ := hb'
          rw [h0] at he
          simp [chars] at he
      · have : sp.raw = [] := by
          rcases hraw' with rfl | ⟨rfl, _⟩
          · simpa [chars] using hnil
          · simp [chars] at hnil
        rw [if_neg (by simp [this])]
        exact ihb hb
    cases hf : fixes.head?.join with
    | none =>
      refine ⟨?_, ?_⟩
      · simp only [render, hf]
        refine reads_append h1 (.hole rfl h2 ihr) ⟨fun _ ⟨c, t, he, _⟩ => ?_, fun _ ⟨c, t, he, _⟩ => ?_, fun _ ⟨c, t, he, _⟩ => ?_⟩ <;> simp at he
      · rintro ⟨c, t, he, _⟩
        simp [after, hf] at he
    | some f =>
      have hxf := hhead f hf
      rw [hxf] at hx
      simp only [render, after, hf]
      rw [List.append_assoc]
      generalize hnx : (if sp.raw ≠ [] then startsWithBrace sp.raw else (checkSpans sp.raw rest).1) = nx at hnext
      cases hexpr : sp.expr with
      | keep i => simp [checkSpans, hexpr] at hx
      | word t =>
        rw [hexpr] at h2
        have hwf := hsp.wf
        rw [hexpr] at hwf
        simp only [checkSpans, hexpr, List.cons.injEq, Option.some.injEq, and_true] at hx
        rw [← hx]
        have hpl : ∀ c ∈ t, Plain .template c := by
          intro c hcm
          have := hwf.2 c hcm
          simp only [Plain, List.mem_cons, List.not_mem_nil, or_false]
          rintro (rfl | rfl | rfl | rfl) <;> (revert this; decide)
        have hw : w = units (t.flatMap utf16) := by cases h2; rfl
        have htne := hwf.1
        have hnb : ¬ Begins (· = '{') (chars (H := Interp) t ++ render sp.raw rest fixes.tail) := by
          intro hb
          rcases begins_append hb with ⟨c, s, he, rfl⟩ | ⟨he, _⟩
          · obtain ⟨t', rfl, _⟩ := chars_cons he.symm
            have := hwf.2 '{' (by simp)
            revert this; decide
          · exact htne (by simpa [chars] using he)
        refine ⟨?_, fun hb => absurd hb hnb⟩
        rw [if_neg (by simp)]
        refine reads_append h1 (reads_append ?_ ihr (joins_text ?_ ?_)) (joins_text hc fun _ => hnb)
        · rw [hw]; exact reads_plain hpl
        · constructor
          · intro h
            have := hpl '\\' (h.subset (by simp))
            simp [Plain] at this
          · intro h
            have := hpl '\r' (h.subset (by simp))
            simp [Plain] at this
        · intro hd
          obtain ⟨a, rfl⟩ := dollar_shape hd
          have := hpl '$' (by simp)
          simp [Plain] at this
      | literal l =>
        rw [hexpr] at h2
        have hwf := hsp.wf
        have hci := hsp.interp
        rw [hexpr] at hwf hci
        simp only [checkSpans, hexpr, hnx, List.cons.injEq, Option.some.injEq, and_true] at hx
        rw [← hx]
        have hres : (checkSpans raw (sp :: rest)).1 = if replacementText l nx ≠ [] then startsWithBrace (replacementText l nx) else nx := by
          simp only [checkSpans, hexpr, hnx]
        rw [hres]
        simp only
        have hbg : Begins (· = '{') (chars (H := Interp) (replacementText l nx) ++ render sp.raw rest fixes.tail) →
            (if replacementText l nx ≠ [] then startsWithBrace (replacementText l nx) else nx) = true := by
          intro hb
          rcases begins_append hb with hb | ⟨he, hb⟩
          · rw [if_pos]
            · exact begins_brace hb
            · intro h0
              obtain ⟨c, t, he, _⟩ := hb
              rw [h0] at he
              simp [chars] at he
          · rw [if_neg (by simpa [chars] using he)]
            exact hnext hb
        refine ⟨?_, hbg⟩
        refine put_front hc h1 (reads_append (replacement_reads hwf h2 nx) ihr (joins_text (replacement_closed hci nx) ?_)) rfl hbg
        intro hd hb
        have := hnext hb
        subst this
        exact replacement_dollar (H := Interp) ((endsDollar_chars _).2 hd)
      | nested head nspans =>
        rw [hexpr] at h2
        have hci := hsp.interp
        rw [hexpr] at hci
        simp only [checkSpans, hexpr, hnx, List.cons.injEq, Option.some.injEq, and_true] at hx
        rw [← hx]
        have hres : (checkSpans raw (sp :: rest)).1 = if head ≠ [] then startsWithBrace head else nx := by
          simp only [checkSpans, hexpr, hnx]
        rw [hres]
        simp only
        have hread : Reads Denotes .template (nestedText .keep head nspans) w := by
          cases h2 with | nested h => exact nested_reads h
        obtain ⟨pre, p1, p2, p3⟩ := nested_split (H := Interp) .keep head nspans
        have hpre : pre = [] ∨ ∃ h r, pre.reverse = .hole h :: r := p3.imp (·.1) id
        obtain ⟨e1, e2, e3⟩ := ends_of_pre (l := lastRaw head nspans) hpre
        rw [← p1] at e1 e2 e3
        rw [endsDollar_chars] at e1
        -- the content
        have hcontent : ∀ c, c = (if nx && endsWithUnescapedDollarSign (lastRaw head nspans) then nestedEscaped Interp.keep head nspans
            else nestedText .keep head nspans) →
            Reads Denotes .template (c ++ render sp.raw rest fixes.tail) (w ++ vs) ∧
              (Begins (· = '{') (c ++ render sp.raw rest fixes.tail) → (if head ≠ [] then startsWithBrace head else nx) = true) := by
          intro c hce
          by_cases hesc : (nx && endsWithUnescapedDollarSign (lastRaw head nspans)) = true
          · rw [if_pos hesc] at hce
            rw [Bool.and_eq_true] at hesc
            rw [nestedEscaped_eq _ _ _ hesc.2] at hce
            subst hce
            constructor
            · refine reads_append (reads_escape_dollar hread (e1.2 hesc.2)) ihr ⟨fun h => ?_, fun ⟨r, h⟩ => ?_, fun ⟨r, h⟩ => ?_⟩
              · exact absurd h (not_endsDollar_escaped (e1.2 hesc.2))
              · simp at h
              · simp at h
            · intro hb
              rcases begins_append hb with hb | ⟨he, _⟩
              · have := begins_nested (begins_dropLast (by decide) hb)
                rw [if_pos this.1]
                exact this.2
              · simp at he
          · rw [if_neg hesc] at hce
            subst hce
            constructor
            · refine reads_append hread ihr ⟨fun h hb => ?_, fun h => ?_, fun h => ?_⟩
              · exact hesc (by rw [hnext hb, e1.1 h]; rfl)
              · exact absurd ((endsNull_chars _).1 (e2 h)) hci.1
              · exact absurd ((endsCR_chars _).1 (e3 h)) hci.2
            · intro hb
              rcases begins_append hb with hb | ⟨he, hb⟩
              · have := begins_nested hb
                rw [if_pos this.1]
                exact this.2
              · have : head = [] := by
                  cases nspans with
                  | nil => simpa [nestedText, chars] using he
                  | cons x xs => obtain ⟨i, r⟩ := x; simp [nestedText] at he
                rw [if_neg (by simp [this])]
                exact hnext hb
        obtain ⟨c1, c2⟩ := hcontent _ rfl
        exact ⟨put_front hc h1 c1 rfl c2, c2⟩

/-- C47 (main).  Whatever subset of the fixes is applied, the template denotes exactly what it denoted before — in particular nothing new
is a substitution — provided no piece of text ends in `\0` or in a carriage return (`C47_hazard_null` and `C47_hazard_cr` show what
happens otherwise). -/
theorem C47_preserves (head : Text) (spans : List Span) (v : List Val) (fixes : List (Option Fixed))
    (hr : Reads Denotes .template (original head spans) v) (hc : Chosen fixes (checkSpans head spans).2)
    (hh : Closed head) (hs : ∀ sp ∈ spans, SpanOK sp) (v' : List Val) :
    Reads Denotes .template (render head spans fixes) v' ↔ v' = v := by
  have h := (preserves spans hs head v fixes hh hr hc).1
  exact ⟨fun h' => reads_unique denotes_unique h' h, fun e => e ▸ h⟩

/-- C47 (finding).  `\0${1}` is "fixed" to `\01`, which is no template. -/
theorem C47_hazard_null :
    let head : Text := ['\\', '0']
    let spans : List Span := [⟨.literal (.number ['1']), []⟩]
    Reads Denotes .template (original head spans) [.unit 0, .unit 49] ∧
      ¬ ∃ v, Reads Denotes .template (render head spans (checkSpans head spans).2) v := by
  refine ⟨?_, ?_⟩
  · exact .null (s := [.hole (Interp.literal (.number ['1']))]) (fun ⟨c, t, he, _⟩ => by simp at he)
      (.hole (w := [.unit 49]) rfl (Denotes.number (t := ['1'])) .nil)
  · rintro ⟨v, hv⟩
    have e : render ['\\', '0'] [⟨.literal (.number ['1']), []⟩] (checkSpans ['\\', '0'] [⟨.literal (.number ['1']), []⟩]).2 =
        [.ch '\\', .ch '0', .ch '1'] := by rfl
    rw [e] at hv
    generalize hx : [Sym.ch (H := Interp) '\\', .ch '0', .ch '1'] = x at hv
    cases hv with
    | nil => simp at hx
    | plain hc => simp at hx; exact absurd hx.1.symm (plain_ne _ _ hc).1
    | esc he =>
      obtain ⟨c, t, rfl, hc0, _⟩ := esc_head he
      simp [chars] at hx; exact absurd hx.1.symm hc0
    | null hb => simp at hx; exact hb ⟨'1', [], hx.symm, by decide⟩
    | carriage => simp at hx
    | dollar => simp at hx
    | crlf => simp at hx
    | cr => simp at hx
    | hole => simp at hx

/-- C47 (finding).  A carriage return before an interpolated template that begins with a line feed: two line ends become one. -/
theorem C47_hazard_cr :
    let head : Text := ['\r']
    let spans : List Span := [⟨.literal (.template ['\n']), []⟩]
    Reads Denotes .template (original head spans) [.unit 10, .unit 10] ∧
      Reads Denotes .template (render head spans (checkSpans head spans).2) [.unit 10] := by
  refine ⟨?_, ?_⟩
  · exact .cr (s := [.hole (Interp.literal (.template ['\n']))]) rfl (fun ⟨c, t, he, _⟩ => by simp at he)
      (.hole (w := [.unit 10]) rfl (Denotes.template (.plain (c := '\n') (s := []) (by simp [Plain]) .nil)) .nil)
  · exact .crlf (s := []) rfl .nil

/-! ## Which interpolations are reported -/

/-- C47 (decision).  An interpolation without comments is reported exactly if it is `undefined`, `NaN` or `Infinity`, another literal or a
template, or a string — white space before a line break excepted. -/
theorem C47_unnecessary (isSpace : Char → Bool) (e : ExprInfo) (raw : Text) :
    isUnnecessary isSpace e raw = true ↔ e.hasComments = false ∧ (e.isFixableIdentifier = true ∨
      (e.stringValue = none ∧ e.isOtherLiteral = true) ∨
      (∃ v, e.stringValue = some v ∧ ¬ ((['\n'] <+: raw ∨ ['\r', '\n'] <+: raw) ∧ ∀ c ∈ v, isSpace c = true))) := by
  unfold isUnnecessary startsWithNewline
  cases e.hasComments <;> cases e.isFixableIdentifier <;> cases e.stringValue <;> simp
  intros
  grind

/-! ## Edits -/

/-- C47 (edits).  In `a ${ e } c` the fix for a literal or a word replaces `${ e }` by the replacement (or by `e`), escapes the dollar
sign before it if asked to, and changes nothing else; its edits do not overlap. -/
theorem C47_literal_edits (a ws e ws' c : Bytes) (replacement : Option Bytes) (escapePrev : Bool) :
    let prev : Bytes := if escapePrev then [36] else []
    let before := a ++ prev ++ [36, 123]
    let site : Site := ⟨before.length, (before ++ ws).length, (before ++ ws ++ e).length, (before ++ ws ++ e ++ ws').length⟩
    ∃ sorted, (literalFixes site replacement escapePrev).Perm sorted ∧ Disjoint sorted ∧
      editAll (before ++ ws ++ e ++ ws' ++ [125] ++ c) sorted =
        a ++ (if escapePrev then [92, 36] else []) ++ replacement.getD e ++ c := by
  intro prev before site
  cases escapePrev <;> cases replacement with
  | none =>
    first
    | (refine Seg.apply [.keep a, .sub ([36, 123] ++ ws) [], .keep e, .sub (ws' ++ [125]) [], .keep c] _ _ _ ?_ ?_ ?_
       · simp [Seg.old, before, prev]
       · simp [Seg.new]
       · refine List.Perm.of_eq ?_
         simp [literalFixes, Seg.edits, site, before, prev]; omega)
    | (refine Seg.apply [.keep a, .sub [36] [92, 36], .sub ([36, 123] ++ ws) [], .keep e, .sub (ws' ++ [125]) [], .keep c] _ _ _ ?_ ?_ ?_
       · simp [Seg.old, before, prev]
       · simp [Seg.new]
       · refine List.Perm.trans (List.perm_append_comm (l₁ := [_, _]) (l₂ := [_])) (List.Perm.of_eq ?_)
         simp [Seg.edits, site, before, prev]; omega)
  | some r =>
    first
    | (refine Seg.apply [.keep a, .sub ([36, 123] ++ ws) [], .sub e r, .sub (ws' ++ [125]) [], .keep c] _ _ _ ?_ ?_ ?_
       · simp [Seg.old, before, prev]
       · simp [Seg.new]
       · refine List.Perm.trans (List.Perm.cons _ (List.Perm.swap _ _ _)) (List.Perm.of_eq ?_)
         simp [Seg.edits, site, before, prev]; omega)
    | (refine Seg.apply [.keep a, .sub [36] [92, 36], .sub ([36, 123] ++ ws) [], .sub e r, .sub (ws' ++ [125]) [], .keep c] _ _ _ ?_ ?_ ?_
       · simp [Seg.old, before, prev]
       · simp [Seg.new]
       · refine List.Perm.trans (List.perm_append_comm (l₁ := [_, _, _]) (l₂ := [_]))
           (List.Perm.trans (List.Perm.cons _ (List.Perm.cons _ (List.Perm.swap _ _ _))) (List.Perm.of_eq ?_))
         simp [Seg.edits, site, before, prev]; omega)

/-- C47 (edits).  In ``a ${ `body` } c`` the fix for a nested template removes `${`, `}` and the backticks, puts a backslash before the
last dollar sign if asked to, escapes the dollar sign before, and changes nothing else; its edits do not overlap. -/
theorem C47_nested_edits (a ws body ws' c : Bytes) (escapeLast escapePrev : Bool) :
    let prev : Bytes := if escapePrev then [36] else []
    let last : Bytes := if escapeLast then [36] else []
    let before := a ++ prev ++ [36, 123]
    let e := [96] ++ body ++ last ++ [96]
    let site : Site := ⟨before.length, (before ++ ws).length, (before ++ ws ++ e).length, (before ++ ws ++ e ++ ws').length⟩
    ∃ sorted, (nestedFixes site escapeLast escapePrev).Perm sorted ∧ Disjoint sorted ∧
      editAll (before ++ ws ++ e ++ ws' ++ [125] ++ c) sorted =
        a ++ (if escapePrev then [92, 36] else []) ++ body ++ (if escapeLast then [92, 36] else []) ++ c := by
  intro prev last before e site
  cases escapePrev <;> cases escapeLast
  · refine Seg.apply [.keep a, .sub ([36, 123] ++ ws) [], .sub [96] [], .keep body, .sub [96] [], .sub (ws' ++ [125]) [], .keep c] _ _ _ ?_ ?_ ?_
    · simp [Seg.old, before, prev, e, last]
    · simp [Seg.new]
    · refine List.Perm.trans (List.Perm.cons _ (List.perm_append_comm (l₁ := [_]) (l₂ := [_, _]))) (List.Perm.of_eq ?_)
      simp [Seg.edits, site, before, prev, e, last]; omega
  · refine Seg.apply [.keep a, .sub ([36, 123] ++ ws) [], .sub [96] [], .keep body, .sub [] [92], .keep [36], .sub [96] [], .sub (ws' ++ [125]) [],
      .keep c] _ _ _ ?_ ?_ ?_
    · simp [Seg.old, before, prev, e, last]
    · simp [Seg.new]
    · refine List.Perm.trans (List.Perm.cons _ (List.Perm.trans (List.perm_append_comm (l₁ := [_, _]) (l₂ := [_, _]))
        (List.Perm.trans (List.Perm.cons _ (List.perm_append_comm (l₁ := [_]) (l₂ := [_, _])))
        (List.Perm.trans (List.Perm.cons _ (List.Perm.swap _ _ _)) (List.Perm.cons _ (List.Perm.cons _ (List.Perm.swap _ _ _))))))) (List.Perm.of_eq ?_)
      simp [Seg.edits, site, before, prev, e, last]; omega
  · refine Seg.apply [.keep a, .sub [36] [92, 36], .sub ([36, 123] ++ ws) [], .sub [96] [], .keep body, .sub [96] [], .sub (ws' ++ [125]) [],
      .keep c] _ _ _ ?_ ?_ ?_
    · simp [Seg.old, before, prev, e, last]
    · simp [Seg.new]
    · refine List.Perm.trans (List.perm_append_comm (l₁ := [_, _, _, _]) (l₂ := [_])) (List.Perm.trans
        (List.Perm.cons _ (List.Perm.cons _ (List.perm_append_comm (l₁ := [_]) (l₂ := [_, _])))) (List.Perm.of_eq ?_))
      simp [Seg.edits, site, before, prev, e, last]; omega
  · refine Seg.apply [.keep a, .sub [36] [92, 36], .sub ([36, 123] ++ ws) [], .sub [96] [], .keep body, .sub [] [92], .keep [36], .sub [96] [],
      .sub (ws' ++ [125]) [], .keep c] _ _ _ ?_ ?_ ?_
    · simp [Seg.old, before, prev, e, last]
    · simp [Seg.new]
    · refine List.Perm.trans (List.perm_append_comm (l₁ := [_, _, _, _, _]) (l₂ := [_])) (List.Perm.trans (List.Perm.cons _
        (List.Perm.cons _ (List.Perm.trans (List.perm_append_comm (l₁ := [_, _]) (l₂ := [_, _]))
        (List.Perm.trans (List.Perm.cons _ (List.perm_append_comm (l₁ := [_]) (l₂ := [_, _])))
        (List.Perm.trans (List.Perm.cons _ (List.Perm.swap _ _ _)) (List.Perm.cons _ (List.Perm.cons _ (List.Perm.swap _ _ _)))))))) (List.Perm.of_eq ?_))
      simp [Seg.edits, site, before, prev, e, last]; omega

/-! ## Instances -/

/-- ``$${'{'}${`a$`}{`` → `\${a\${`: both dollar signs get a backslash. -/
def exSpans : List Span := [⟨.literal (.str '\'' ['{']), []⟩, ⟨.literal (.template ['a', '$']), ['{']⟩]

example : (checkSpans ['$'] exSpans).2 = [some ⟨chars ['{'], true⟩, some ⟨chars ['a', '\\', '$'], false⟩] := by rfl

example : Reads Denotes .template (original ['$'] exSpans) (units [36, 123, 97, 36, 123]) := by
  have h2 : Denotes (.literal (.template ['a', '$'])) (units [97, 36]) :=
    .template (.plain (c := 'a') (s := [.ch '$']) (v := units [36]) (by simp [Plain])
      (.dollar (s := []) (v := []) rfl (fun ⟨c, t, he, _⟩ => by simp at he) .nil))
  have h1 : Denotes (.literal (.str '\'' ['{'])) (units [123]) :=
    .str (.plain (c := '{') (s := []) (v := []) (by simp [Plain]) .nil)
  exact .dollar (v := units [123, 97, 36, 123]) rfl (fun ⟨c, t, he, _⟩ => by simp [exSpans, render] at he)
    (.hole (w := units [123]) (v := units [97, 36, 123]) rfl h1 (.hole (w := units [97, 36]) (v := units [123]) rfl h2
      (.plain (c := '{') (s := []) (v := []) (by simp [Plain]) .nil)))

example : Chosen (checkSpans ['$'] exSpans).2 (checkSpans ['$'] exSpans).2 := ⟨rfl, fun _ _ h => h⟩
example : Chosen [none, some ⟨chars ['a', '\\', '$'], false⟩] (checkSpans ['$'] exSpans).2 := by
  refine ⟨rfl, fun i f h => ?_⟩
  match i, h with
  | 0, h => simp at h
  | 1, h => simp at h; rw [← h]; rfl

theorem closed_short (c : Char) (h : c ≠ '\r') : Closed [c] := by
  refine ⟨fun h' => ?_, fun h' => ?_⟩
  · have := h'.length_le; simp at this
  · have := h'.subset (List.mem_singleton.2 rfl); simp at this; exact h this.symm

example : Closed ['$'] ∧ ∀ sp ∈ exSpans, SpanOK sp := by
  refine ⟨closed_short _ (by decide), ?_⟩
  intro sp hsp
  simp only [exSpans, List.mem_cons, List.not_mem_nil, or_false] at hsp
  rcases hsp with rfl | rfl
  · exact ⟨trivial, closed_short _ (by decide), by constructor <;> (intro h; have := h.length_le; simp at this)⟩
  · refine ⟨trivial, ?_, closed_short _ (by decide)⟩
    constructor
    · rintro ⟨t, ht⟩; have := congrArg List.reverse ht; simp [literalText] at this
    · rintro ⟨t, ht⟩; have := congrArg List.reverse ht; simp [literalText] at this

example : isUnnecessary (· = ' ') ⟨false, false, some [' '], false⟩ ['\n', 'x'] = false := by decide
example : isUnnecessary (· = ' ') ⟨false, false, some [' '], false⟩ ['x'] = true := by decide

end Tsgolint.Template
