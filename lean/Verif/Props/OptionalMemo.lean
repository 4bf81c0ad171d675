import Verif.Spec.OptionalMemo

namespace Tsgolint.OptionalMemo

open OptionalChain OptionalChain.Expr

variable {N I : Type} [DecidableEq N]

/-- the plain recursion finds the question marks -/
theorem hasOptional_iff : ∀ e : Expr, hasOptional e = true ↔ Questioned e
  | .paren e => by
    rw [show hasOptional (.paren e) = hasOptional e from rfl, hasOptional_iff e]
    exact ⟨.inParen _, fun h => by cases h; assumption⟩
  | .prop e o x => by
    rw [show hasOptional (.prop e o x) = (o || hasOptional e) from rfl, Bool.or_eq_true, hasOptional_iff e]
    constructor
    · rintro (h | h)
      · subst h; exact .prop _ _
      · exact .inProp _ _ _ h
    · intro h; cases h
      · exact .inl rfl
      · exact .inr (by assumption)
  | .elem e o x => by
    rw [show hasOptional (.elem e o x) = (o || hasOptional e) from rfl, Bool.or_eq_true, hasOptional_iff e]
    constructor
    · rintro (h | h)
      · subst h; exact .elem _ _
      · exact .inElem _ _ _ h
    · intro h; cases h
      · exact .inl rfl
      · exact .inr (by assumption)
  | .call e o ts xs => by
    rw [show hasOptional (.call e o ts xs) = (o || hasOptional e) from rfl, Bool.or_eq_true, hasOptional_iff e]
    constructor
    · rintro (h | h)
      · subst h; exact .call _ _ _
      · exact .inCall _ _ _ _ h
    · intro h; cases h
      · exact .inl rfl
      · exact .inr (by assumption)
  | .binary l o t r => by
    rw [show hasOptional (.binary l o t r) = (hasOptional l || hasOptional r) from rfl, Bool.or_eq_true, hasOptional_iff l, hasOptional_iff r]
    constructor
    · rintro (h | h)
      · exact .left _ _ _ _ h
      · exact .right _ _ _ _ h
    · intro h; cases h
      · exact .inl (by assumption)
      · exact .inr (by assumption)
  | .ident _ _ | .keyword _ _ | .literal _ _ _ | .nonNull _ | .asType _ _ | .assertion _ _ | .unary _ _ | .typeof _ | .template _ _ _ | .await _
  | .metaProp _ _ _ | .other _ _ _ => ⟨(fun h => by cases h), (fun h => by cases h)⟩

theorem signatures_iff (c t : Text) : ∀ e : Expr, (c, t) ∈ signatures e ↔ Called e c t
  | .call e o ts xs => by
    rw [show signatures (.call e o ts xs) = (text e, text (.call e o ts xs)) :: signatures e from rfl, List.mem_cons, signatures_iff c t e]
    constructor
    · rintro (h | h)
      · rw [Prod.mk.injEq] at h
        rw [h.1, h.2]; exact .here _ _ _ _
      · exact .inCall _ _ _ _ _ _ h
    · intro h; cases h
      · exact .inl rfl
      · exact .inr (by assumption)
  | .prop e o x => by
    rw [show signatures (.prop e o x) = signatures e from rfl, signatures_iff c t e]
    exact ⟨.inProp _ _ _ _ _, fun h => by cases h; assumption⟩
  | .elem e o x => by
    rw [show signatures (.elem e o x) = signatures e from rfl, signatures_iff c t e]
    exact ⟨.inElem _ _ _ _ _, fun h => by cases h; assumption⟩
  | .nonNull e => by
    rw [show signatures (.nonNull e) = signatures e from rfl, signatures_iff c t e]
    exact ⟨.inNonNull _ _ _, fun h => by cases h; assumption⟩
  | .ident _ _ | .keyword _ _ | .literal _ _ _ | .paren _ | .asType _ _ | .assertion _ _ | .binary _ _ _ _ | .unary _ _ | .typeof _
  | .template _ _ _ | .await _ | .metaProp _ _ _ | .other _ _ _ => ⟨(fun h => by cases h), (fun h => by cases h)⟩

/-- everything remembered is right -/
def Sound (T : Nodes N) (c : Cache N Bool) : Prop := ∀ n b, c n = some b → b = hasOptional (T.expr n)

omit [DecidableEq N] in
theorem Sound.empty (T : Nodes N) : Sound T (fun _ => none) := fun _ _ h => nomatch h

theorem Sound.set {T : Nodes N} {c : Cache N Bool} (h : Sound T c) (n : N) : Sound T (c.set n (hasOptional (T.expr n))) := by
  intro m b hb
  unfold Cache.set at hb
  by_cases hm : m = n
  · rw [if_pos hm] at hb
    subst hm
    exact (Option.some.inj hb).symm
  · rw [if_neg hm] at hb
    exact h m b hb

theorem ask_right {T : Nodes N} {n : N} {f : Cache N Bool → Bool × Cache N Bool}
    (hf : ∀ c, Sound T c → (f c).1 = hasOptional (T.expr n) ∧ Sound T (f c).2) (c : Cache N Bool) (hc : Sound T c) :
    (ask n f c).1 = hasOptional (T.expr n) ∧ Sound T (ask n f c).2 := by
  unfold ask
  cases h : c n with
  | some b => exact ⟨hc n b h, hc⟩
  | none =>
    refine ⟨(hf c hc).1, ?_⟩
    show Sound T ((f c).2.set n (f c).1)
    rw [(hf c hc).1]
    exact (hf c hc).2.set n

theorem raw_right {T : Nodes N} (hT : T.Linked) : ∀ (e : Expr) (n : N), T.expr n = e → ∀ c, Sound T c →
    (raw T e n c).1 = hasOptional e ∧ Sound T (raw T e n c).2
  | .paren e, n, h, c, hc => raw_right hT e (T.kid n 0) (hT.paren n e h) c hc
  | .prop e o x, n, h, c, hc => by
    have hk := hT.prop n e o x h
    rw [show raw T (.prop e o x) n c = if o then (true, c) else ask (T.kid n 0) (raw T e (T.kid n 0)) c from rfl,
      show hasOptional (.prop e o x) = (o || hasOptional e) from rfl]
    cases o with
    | true => exact ⟨rfl, hc⟩
    | false =>
      have := ask_right (n := T.kid n 0) (f := raw T e (T.kid n 0)) (fun c hc => by rw [hk]; exact raw_right hT e _ hk c hc) c hc
      rw [hk] at this
      exact this
  | .elem e o x, n, h, c, hc => by
    have hk := hT.elem n e o x h
    rw [show raw T (.elem e o x) n c = if o then (true, c) else ask (T.kid n 0) (raw T e (T.kid n 0)) c from rfl,
      show hasOptional (.elem e o x) = (o || hasOptional e) from rfl]
    cases o with
    | true => exact ⟨rfl, hc⟩
    | false =>
      have := ask_right (n := T.kid n 0) (f := raw T e (T.kid n 0)) (fun c hc => by rw [hk]; exact raw_right hT e _ hk c hc) c hc
      rw [hk] at this
      exact this
  | .call e o ts xs, n, h, c, hc => by
    have hk := hT.call n e o ts xs h
    rw [show raw T (.call e o ts xs) n c = if o then (true, c) else ask (T.kid n 0) (raw T e (T.kid n 0)) c from rfl,
      show hasOptional (.call e o ts xs) = (o || hasOptional e) from rfl]
    cases o with
    | true => exact ⟨rfl, hc⟩
    | false =>
      have := ask_right (n := T.kid n 0) (f := raw T e (T.kid n 0)) (fun c hc => by rw [hk]; exact raw_right hT e _ hk c hc) c hc
      rw [hk] at this
      exact this
  | .binary l o t r, n, h, c, hc => by
    have hl := hT.left n l o t r h
    have hr := hT.right n l o t r h
    have ha := ask_right (n := T.kid n 0) (f := raw T l (T.kid n 0)) (fun c hc => by rw [hl]; exact raw_right hT l _ hl c hc) c hc
    rw [hl] at ha
    rw [show raw T (.binary l o t r) n c = if (ask (T.kid n 0) (raw T l (T.kid n 0)) c).1 then ask (T.kid n 0) (raw T l (T.kid n 0)) c
        else ask (T.kid n 1) (raw T r (T.kid n 1)) (ask (T.kid n 0) (raw T l (T.kid n 0)) c).2 from rfl,
      show hasOptional (.binary l o t r) = (hasOptional l || hasOptional r) from rfl]
    by_cases hb : (ask (T.kid n 0) (raw T l (T.kid n 0)) c).1 = true
    · rw [if_pos hb]
      refine ⟨?_, ha.2⟩
      rw [hb, ← ha.1, hb]; rfl
    · rw [if_neg hb]
      have := ask_right (n := T.kid n 1) (f := raw T r (T.kid n 1)) (fun c hc => by rw [hr]; exact raw_right hT r _ hr c hc)
        (ask (T.kid n 0) (raw T l (T.kid n 0)) c).2 ha.2
      rw [hr] at this
      refine ⟨?_, this.2⟩
      rw [this.1, ← ha.1, Bool.eq_false_iff.2 hb]; rfl
  | .ident _ _, _, _, _, hc | .keyword _ _, _, _, _, hc | .literal _ _ _, _, _, _, hc | .nonNull _, _, _, _, hc | .asType _ _, _, _, _, hc
  | .assertion _ _, _, _, _, hc | .unary _ _, _, _, _, hc | .typeof _, _, _, _, hc | .template _ _ _, _, _, _, hc | .await _, _, _, _, hc
  | .metaProp _ _ _, _, _, _, hc | .other _ _ _, _, _, _, hc => ⟨rfl, hc⟩

/-- the caches after the steps `before` -/
structure Fine (T : Nodes N) (info : N → I) (before : List (Step N)) (s : Caches N I) : Prop where
  types : ∀ n v, s.types n = some v → v = info n
  calls : ∀ n v, s.calls n = some v → v = signatures (T.expr n)
  optional : Sound T s.optional
  flat : ∀ n v, s.flat n = some v → v.length = (OptionalChain.flat false (T.expr n)).length ∧
    ∀ i, (∀ p, Step.write n i p ∉ before) → v[i]? = (OptionalChain.flat false (T.expr n))[i]?

omit [DecidableEq N] in
theorem Fine.empty (T : Nodes N) (info : N → I) : Fine T info [] Caches.empty :=
  ⟨(fun _ _ h => nomatch h), (fun _ _ h => nomatch h), Sound.empty T, (fun _ _ h => nomatch h)⟩

omit [DecidableEq N] in
theorem Fine.flat_more {T : Nodes N} {info : N → I} {before : List (Step N)} {s : Caches N I} (h : Fine T info before s) (x : Step N) :
    ∀ n v, s.flat n = some v → v.length = (OptionalChain.flat false (T.expr n)).length ∧
      ∀ i, (∀ p, Step.write n i p ∉ before ++ [x]) → v[i]? = (OptionalChain.flat false (T.expr n))[i]? :=
  fun n v hv => ⟨(h.flat n v hv).1, fun i hi => (h.flat n v hv).2 i fun p hp => hi p (List.mem_append_left _ hp)⟩

theorem cache_set {V : Type} {c : Cache N V} {n m : N} {v w : V} (h : c.set n v m = some w) : (m = n ∧ w = v) ∨ (m ≠ n ∧ c m = some w) := by
  unfold Cache.set at h
  by_cases hm : m = n
  · rw [if_pos hm] at h
    exact .inl ⟨hm, (Option.some.inj h).symm⟩
  · rw [if_neg hm] at h
    exact .inr ⟨hm, h⟩

theorem step_right {T : Nodes N} (hT : T.Linked) (info : N → I) {before : List (Step N)} {s : Caches N I} (h : Fine T info before s) (x : Step N) :
    Right T info before x (step T info s x).1 ∧ Fine T info (before ++ [x]) (step T info s x).2 := by
  cases x with
  | types n =>
    cases hc : s.types n with
    | some v =>
      rw [show step T info s (.types n) = (.types v, s) by simp only [step, hc]]
      have := h.types n v hc
      subst this
      exact ⟨.types n, h.types, h.calls, h.optional, h.flat_more _⟩
    | none =>
      rw [show step T info s (.types n) = (.types (info n), { s with types := s.types.set n (info n) }) by simp only [step, hc]]
      refine ⟨.types n, ?_, h.calls, h.optional, h.flat_more _⟩
      intro m w hw
      rcases cache_set hw with ⟨rfl, rfl⟩ | ⟨_, hw⟩
      · rfl
      · exact h.types m w hw
  | calls n =>
    have key : Right T info before (.calls n) (.calls (signatures (T.expr n)) : Answer I) := .calls n _ fun c t => signatures_iff c t _
    cases hc : s.calls n with
    | some v =>
      rw [show step T info s (.calls n) = (.calls v, s) by simp only [step, hc]]
      have := h.calls n v hc
      subst this
      exact ⟨key, h.types, h.calls, h.optional, h.flat_more _⟩
    | none =>
      rw [show step T info s (.calls n) = (.calls (signatures (T.expr n)), { s with calls := s.calls.set n (signatures (T.expr n)) }) by simp only [step, hc]]
      refine ⟨key, h.types, ?_, h.optional, h.flat_more _⟩
      intro m w hw
      rcases cache_set hw with ⟨rfl, rfl⟩ | ⟨_, hw⟩
      · rfl
      · exact h.calls m w hw
  | optional n =>
    have := ask_right (n := n) (f := raw T (T.expr n) n) (fun c hc => raw_right hT (T.expr n) n rfl c hc) s.optional h.optional
    refine ⟨.optional n _ ?_, h.types, h.calls, this.2, h.flat_more _⟩
    rw [this.1]
    exact hasOptional_iff _
  | flat n =>
    cases hc : s.flat n with
    | some v =>
      rw [show step T info s (.flat n) = (.flat v, s) by simp only [step, hc]]
      exact ⟨.flat n v (h.flat n v hc).1 (h.flat n v hc).2, h.types, h.calls, h.optional, h.flat_more _⟩
    | none =>
      rw [show step T info s (.flat n) = (.flat (OptionalChain.flat false (T.expr n)), { s with flat := s.flat.set n (OptionalChain.flat false (T.expr n)) }) by simp only [step, hc]]
      refine ⟨.flat n _ rfl fun _ _ => rfl, h.types, h.calls, h.optional, ?_⟩
      intro m w hw
      rcases cache_set hw with ⟨rfl, rfl⟩ | ⟨_, hw⟩
      · exact ⟨rfl, fun _ _ => rfl⟩
      · exact h.flat_more _ m w hw
  | write n i p =>
    cases hc : s.flat n with
    | none =>
      rw [show step T info s (.write n i p) = (.written, s) by simp only [step, hc]]
      exact ⟨.write n i p, h.types, h.calls, h.optional, h.flat_more _⟩
    | some v =>
      rw [show step T info s (.write n i p) = (.written, { s with flat := s.flat.set n (v.set i p) }) by simp only [step, hc]]
      refine ⟨.write n i p, h.types, h.calls, h.optional, ?_⟩
      intro m w hw
      rcases cache_set hw with ⟨rfl, rfl⟩ | ⟨_, hw⟩
      · refine ⟨by rw [List.length_set]; exact (h.flat m v hc).1, fun j hj => ?_⟩
        have hji : i ≠ j := by
          intro hij
          subst hij
          exact hj p (List.mem_append_right _ List.mem_cons_self)
        rw [List.getElem?_set_ne hji]
        exact (h.flat_more (.write m i p) m v hc).2 j hj
      · exact h.flat_more _ m w hw

theorem history_right {T : Nodes N} (hT : T.Linked) (info : N → I) : ∀ (xs before : List (Step N)) (s : Caches N I), Fine T info before s →
    ∀ (i : Nat) (q : Step N) (a : Answer I), xs[i]? = some q → (history T info s xs)[i]? = some a → Right T info (before ++ xs.take i) q a
  | [], _, _, _, _, _, _, hq, _ => nomatch hq
  | x :: xs, before, s, h, 0, q, a, hq, ha => by
    rw [List.getElem?_cons_zero] at hq
    rw [show history T info s (x :: xs) = (step T info s x).1 :: history T info (step T info s x).2 xs from rfl, List.getElem?_cons_zero] at ha
    obtain rfl := Option.some.inj hq
    obtain rfl := Option.some.inj ha
    rw [List.take_zero, List.append_nil]
    exact (step_right hT info h x).1
  | x :: xs, before, s, h, i + 1, q, a, hq, ha => by
    rw [List.getElem?_cons_succ] at hq
    rw [show history T info s (x :: xs) = (step T info s x).1 :: history T info (step T info s x).2 xs from rfl, List.getElem?_cons_succ] at ha
    have := history_right hT info xs (before ++ [x]) _ (step_right hT info h x).2 i q a hq ha
    rw [List.append_assoc] at this
    exact this

theorem history_length (T : Nodes N) (info : N → I) : ∀ (xs : List (Step N)) (s : Caches N I), (history T info s xs).length = xs.length
  | [], _ => rfl
  | x :: xs, s => by
    show (history T info _ xs).length + 1 = xs.length + 1
    rw [history_length T info xs]

/-- C136: in every history of questions about the nodes of a file, each question is answered, and rightly, whatever was asked before; only the parts of an
expression whose slice was written to may differ, at the places written to, and never in number. -/
theorem C136_history {T : Nodes N} (hT : T.Linked) (info : N → I) (asked : List (Step N)) :
    (history T info Caches.empty asked).length = asked.length ∧
    ∀ (i : Nat) (q : Step N) (a : Answer I), asked[i]? = some q → (history T info Caches.empty asked)[i]? = some a →
      Right T info (asked.take i) q a :=
  ⟨history_length T info asked _, fun i q a hq ha => by
    have := history_right hT info asked [] Caches.empty (Fine.empty T info) i q a hq ha
    rwa [List.nil_append] at this⟩

/-- C136 (hazard): the slice of the cache is the one that is written to, so a later reader sees what was written -/
theorem C136_shared (T : Nodes N) (info : N → I) (n : N) (p : Link) (h : (OptionalChain.flat false (T.expr n))[0]? ≠ some p)
    (hne : OptionalChain.flat false (T.expr n) ≠ []) :
    ∃ parts, history T info Caches.empty [.flat n, .write n 0 p, .flat n] =
      [.flat (OptionalChain.flat false (T.expr n)), .written, .flat parts] ∧ parts ≠ OptionalChain.flat false (T.expr n) := by
  refine ⟨(OptionalChain.flat false (T.expr n)).set 0 p, ?_, ?_⟩
  · simp [history, step, Caches.empty, Cache.set]
  · intro he
    apply h
    rw [← he, List.getElem?_set_self]
    rw [← List.length_pos_iff] at hne
    exact hne

/-! a concrete file: `d && (a.b)?.c`, addresses are paths -/

/-- a part of an expression -/
def part : Nat → Expr → Expr
  | 0, .paren e => e
  | 0, .prop e _ _ => e
  | 0, .elem e _ _ => e
  | 0, .call e _ _ _ => e
  | 0, .binary l _ _ _ => l
  | 1, .binary _ _ _ r => r
  | _, e => e

/-- addresses as paths into one expression -/
def file (root : Expr) : Nodes (List Nat) where
  expr p := p.foldr part root
  kid p i := i :: p

theorem file_kid (root : Expr) (p : List Nat) (i : Nat) : (file root).expr ((file root).kid p i) = part i ((file root).expr p) := rfl

theorem file_linked (root : Expr) : (file root).Linked where
  paren n e h := by rw [file_kid, h]; rfl
  prop n e o x h := by rw [file_kid, h]; rfl
  elem n e o x h := by rw [file_kid, h]; rfl
  call n e o ts xs h := by rw [file_kid, h]; rfl
  left n l o t r h := by rw [file_kid, h]; rfl
  right n l o t r h := by rw [file_kid, h]; rfl

/-- `d && (a.b)?.c` -/
def sample : Expr := .binary (.ident 0 ['d']) .and [' ', '&', '&', ' '] (.prop (.paren (.prop (.ident 5 ['a']) false ['b'])) true ['c'])

example : (file sample).Linked ∧
    history (I := Nat) (file sample) (fun p => p.length) Caches.empty [.optional [0], .optional [], .optional [0, 1], .types [1], .optional [1], .types [1]] =
      [.optional false, .optional true, .optional false, .types 1, .optional true, .types 1] :=
  ⟨file_linked _, by rfl⟩

/-- `a!.b` with its first part written over, as line 3133 does -/
example : history (I := Nat) (file (.prop (.nonNull (.ident 0 ['a'])) false ['b'])) (fun _ => 0) Caches.empty
    [.flat [], .write [] 0 { text := ['a'] }, .flat [], .calls []] =
      [.flat [{ text := ['a', '!'], bang := true }, { text := ['b'], dot := true }], .written,
       .flat [{ text := ['a'] }, { text := ['b'], dot := true }], .calls []] := by rfl

end Tsgolint.OptionalMemo
