import Verif.Props.Snapshot
/-!
# Snapshot files: what is written is read again
-/
namespace Tsgolint.Snapshot

def sep : Bytes := [dash, dash, dash, newline]

theorem isKey_iff (k : Bytes) : isKey k = true ↔ k.head? = some openBracket ∧ k.getLast? = some closeBracket := by
  unfold isKey; simp

/-! ### Blocks -/

theorem blocks_sep (rest : Bytes) : blocks (sep ++ rest) = [] :: blocks rest := by
  show blocks (45 :: 45 :: 45 :: 10 :: rest) = _
  rw [blocks]

theorem blocks_cons (c : UInt8) (rest : Bytes) (h : ¬ ∃ r, c :: rest = sep ++ r) : blocks (c :: rest) = match blocks rest with
    | b :: bs => (c :: b) :: bs
    | [] => [[c]] := by
  rw [blocks.eq_def]
  simp only
  split
  · exact absurd ⟨_, rfl⟩ h
  · rfl

theorem blocks_next : ∀ (s rest : Bytes), ¬ Separated s → blocks (s ++ sep ++ rest) = s :: blocks rest
  | [], rest, _ => blocks_sep rest
  | c :: s, rest, h => by
    have h1 : ¬ Separated s := fun ⟨a, b, he⟩ => h ⟨c :: a, b, by rw [he]; rfl⟩
    have ih := blocks_next s rest h1
    rw [List.cons_append, List.cons_append, blocks_cons, ih]
    rintro ⟨r, he⟩
    -- a separator at the beginning: it is in `c :: s`, or its line end is where a dash is
    rcases s with _ | ⟨s1, _ | ⟨s2, _ | ⟨s3, s⟩⟩⟩
    · simp [sep, dash, newline] at he
    · simp [sep, dash, newline] at he
    · simp [sep, dash, newline] at he
    · simp only [sep, List.cons_append, List.nil_append, List.cons.injEq] at he
      obtain ⟨rfl, rfl, rfl, rfl, _⟩ := he
      exact h ⟨[], s, rfl⟩

theorem sep_split : ∀ (a x z : Bytes), a ++ sep = x ++ newline :: z → z = [] ∨ ∃ a', z = a' ++ sep
  | [], x, z, h => by
    rcases x with _ | ⟨x1, _ | ⟨x2, _ | ⟨x3, _ | ⟨x4, x⟩⟩⟩⟩
    · simp [sep, dash, newline] at h
    · simp [sep, dash, newline] at h
    · simp [sep, dash, newline] at h
    · simp only [sep, List.nil_append, List.cons_append, List.cons.injEq] at h
      exact .inl h.2.2.2.2.symm
    · simp [sep] at h
  | c :: a, [], z, h => by
    simp only [List.cons_append, List.nil_append, List.cons.injEq] at h
    exact .inr ⟨a, h.2.symm⟩
  | c :: a, d :: x, z, h => by
    simp only [List.cons_append, List.cons.injEq] at h
    exact sep_split a x z h.2

theorem separated_split (x y : Bytes) (h : Separated (x ++ newline :: y)) : Separated (x ++ [newline]) ∨ Separated y := by
  obtain ⟨a, b, h⟩ := h
  rw [show [dash, dash, dash, newline] = sep from rfl] at h
  rcases List.append_eq_append_iff.1 h with ⟨z, h1, h2⟩ | ⟨z, h1, h2⟩
  · cases z with
    | nil => left; rw [List.append_nil] at h1; exact ⟨a, [newline], by rw [← h1]; rfl⟩
    | cons c z =>
      simp only [List.cons_append, List.cons.injEq] at h2
      obtain ⟨rfl, h2⟩ := h2
      rcases sep_split a x z h1 with rfl | ⟨a', rfl⟩
      · left; exact ⟨a, [], by rw [← h1, List.append_nil]; rfl⟩
      · right; exact ⟨a', b, h2⟩
  · left; exact ⟨a, z ++ [newline], by rw [h1]; simp [sep]⟩

theorem key_separated {k : Bytes} (h : GoodKey k) : ¬ Separated (k ++ [newline]) := by
  rintro ⟨a, b, he⟩
  rcases List.eq_nil_or_concat b with rfl | ⟨b', x, rfl⟩
  · rw [List.append_nil, show [dash, dash, dash, newline] = [dash, dash, dash] ++ [newline] from rfl, ← List.append_assoc] at he
    have := (List.append_inj' he rfl).1
    have h2 := h.2.1
    rw [this] at h2
    simp [dash, closeBracket] at h2
  · rw [List.concat_eq_append, ← List.append_assoc] at he
    have := (List.append_inj' he rfl).1
    exact h.2.2 (by rw [this]; simp)

def block (k c : Bytes) : Bytes := newline :: (k ++ newline :: (c ++ [newline]))

theorem entryText_eq (k c : Bytes) : entryText k c = block k c ++ sep := by
  simp [entryText, block, sep]

theorem block_separated {k c : Bytes} (hk : GoodKey k) (hc : GoodContent c) : ¬ Separated (block k c) := by
  intro h
  rcases separated_split [] _ h with h | h
  · obtain ⟨a, b, h⟩ := h
    have := congrArg List.length h
    simp at this; omega
  · rcases separated_split k _ h with h | h
    · exact key_separated hk h
    · exact hc.1 h

theorem cut_key : ∀ (k rest : Bytes), newline ∉ k → cut (k ++ newline :: rest) = some (k, rest)
  | [], rest, _ => by simp [cut]
  | c :: k, rest, h => by
    have h1 : c ≠ newline := fun e => h (by simp [e])
    rw [List.cons_append, cut, if_neg h1, cut_key k rest (fun hm => h (List.mem_cons_of_mem _ hm))]
    rfl

theorem trimLeft_stop {s : Bytes} (h : s.head? ≠ some newline) : trimLeft s = s := by
  cases s with
  | nil => rfl
  | cons c s =>
    have : (c == newline) = false := by
      rw [beq_eq_false_iff_ne]; intro e; exact h (by rw [e]; rfl)
    rw [trimLeft, List.dropWhile_cons, this]; rfl

theorem parseBlock_block {k c : Bytes} (hk : GoodKey k) (hc : GoodContent c) : parseBlock (block k c) = some (k, c) := by
  have h1 : trimLeft (block k c) = k ++ newline :: (c ++ [newline]) := by
    have h0 : trimLeft (block k c) = trimLeft (k ++ newline :: (c ++ [newline])) := by
      unfold block trimLeft
      rw [List.dropWhile_cons, if_pos (by decide)]
    rw [h0, trimLeft_stop]
    intro h
    obtain ⟨hh, _, hn⟩ := hk
    cases k with
    | nil => cases hh
    | cons b k =>
      simp only [List.cons_append, List.head?_cons, Option.some.injEq] at h
      exact hn (by simp [h])
  have h2 : trimRight (c ++ [newline]) = c := by
    have h0 : trimLeft (newline :: c.reverse) = trimLeft c.reverse := by
      unfold trimLeft
      rw [List.dropWhile_cons, if_pos (by decide)]
    unfold trimRight
    rw [List.reverse_append, List.reverse_singleton, List.singleton_append, h0, trimLeft_stop (by rw [List.head?_reverse]; exact hc.2), List.reverse_reverse]
  unfold parseBlock
  rw [h1, cut_key k _ hk.2.2, Option.bind_some, if_pos ((isKey_iff k).2 ⟨hk.1, hk.2.1⟩), h2]

theorem blocks_entries : ∀ (l : Entries), (∀ e ∈ l, GoodKey e.1 ∧ GoodContent e.2) →
    blocks (l.flatMap fun e => entryText e.1 e.2) = (l.map fun e => block e.1 e.2) ++ [[]]
  | [], _ => by simp [blocks]
  | e :: l, h => by
    have he := h e (by simp)
    rw [List.flatMap_cons, entryText_eq, blocks_next _ _ (block_separated he.1 he.2), blocks_entries l (fun x hx => h x (List.mem_cons_of_mem _ hx))]
    rfl

/-! ### Maps -/

theorem set_new : ∀ (es : Entries) (k c : Bytes), k ∉ es.map Prod.fst → es.set k c = es ++ [(k, c)]
  | [], _, _, _ => rfl
  | e :: es, k, c, h => by
    rw [Entries.set, if_neg (fun he => h (by simp [he])), set_new es k c (fun hm => h (List.mem_cons_of_mem _ hm))]
    rfl

theorem set_keys : ∀ (es : Entries) (k c : Bytes), (es.set k c).map Prod.fst = if k ∈ es.map Prod.fst then es.map Prod.fst else es.map Prod.fst ++ [k]
  | [], _, _ => by simp [Entries.set]
  | e :: es, k, c => by
    rw [Entries.set]
    by_cases h : e.1 = k
    · rw [if_pos h]; simp [h]
    · rw [if_neg h, List.map_cons, set_keys es k c, List.map_cons]
      by_cases hm : k ∈ es.map Prod.fst
      · rw [if_pos hm, if_pos (List.mem_cons_of_mem _ hm)]
      · rw [if_neg hm, if_neg (by simpa [Ne.symm h] using hm)]; rfl

theorem set_map {es : Entries} (h : es.Map) (k c : Bytes) : (es.set k c).Map := by
  unfold Entries.Map at *
  rw [set_keys]
  by_cases hm : k ∈ es.map Prod.fst
  · rw [if_pos hm]; exact h
  · rw [if_neg hm, List.nodup_append]
    exact ⟨h, by simp, fun a ha b hb => by simp at hb; subst hb; exact fun e => hm (e ▸ ha)⟩

theorem get_set : ∀ (es : Entries) (k c k' : Bytes), (es.set k c).get k' = if k = k' then some c else es.get k'
  | [], k, c, k' => by
    by_cases h : k = k'
    · simp [Entries.set, Entries.get, h]
    · simp [Entries.set, Entries.get, h]
  | e :: es, k, c, k' => by
    have ih := get_set es k c k'
    unfold Entries.get at ih ⊢
    rw [Entries.set]
    by_cases he : e.1 = k
    · rw [if_pos he]
      by_cases h : k = k'
      · rw [if_pos h]; simp [h]
      · rw [if_neg h]; simp [h, he]
    · rw [if_neg he]
      by_cases h : e.1 = k'
      · have : k ≠ k' := fun e' => he (h.trans e'.symm)
        rw [if_neg this]; simp [h]
      · simp only [List.find?_cons]
        have : (e.1 == k') = false := by simp [h]
        rw [this]
        exact ih

theorem mem_set {es : Entries} {k c : Bytes} {e : Bytes × Bytes} (h : e ∈ es.set k c) : e = (k, c) ∨ e ∈ es := by
  induction es with
  | nil => simp [Entries.set] at h; exact .inl h
  | cons x es ih =>
    rw [Entries.set] at h
    by_cases hx : x.1 = k
    · rw [if_pos hx] at h
      rcases List.mem_cons.1 h with h | h
      · exact .inl h
      · exact .inr (List.mem_cons_of_mem _ h)
    · rw [if_neg hx] at h
      rcases List.mem_cons.1 h with h | h
      · exact .inr (by simp [h])
      · rcases ih h with h | h
        · exact .inl h
        · exact .inr (List.mem_cons_of_mem _ h)

theorem get_mem : ∀ {es : Entries}, es.Map → ∀ {e}, e ∈ es → es.get e.1 = some e.2
  | [], _, e, h => by simp at h
  | x :: es, hm, e, h => by
    unfold Entries.Map at hm
    rw [List.map_cons, List.nodup_cons] at hm
    unfold Entries.get
    rw [List.find?_cons]
    rcases List.mem_cons.1 h with rfl | h
    · simp
    · have : (x.1 == e.1) = false := by
        rw [beq_eq_false_iff_ne]; intro he; exact hm.1 (by rw [he]; exact List.mem_map_of_mem h)
      rw [this]
      exact get_mem hm.2 h

theorem get_none {es : Entries} {k : Bytes} (h : k ∉ es.map Prod.fst) : es.get k = none := by
  unfold Entries.get
  rw [Option.map_eq_none_iff, List.find?_eq_none]
  intro e he hk
  exact h (by rw [← (by simpa using hk : e.1 = k)]; exact List.mem_map_of_mem he)

theorem get_some {es : Entries} {k c : Bytes} (h : es.get k = some c) : (k, c) ∈ es := by
  unfold Entries.get at h
  obtain ⟨e, h1, h2⟩ := Option.map_eq_some_iff.1 h
  have h3 := List.find?_some h1
  have h4 := List.mem_of_find?_eq_some h1
  have : e = (k, c) := by
    rw [← h2, ← (by simpa using h3 : e.1 = k)]
  rwa [this] at h4

theorem get_perm {a b : Entries} (ha : a.Map) (h : a.Perm b) (k : Bytes) : a.get k = b.get k := by
  have hb : b.Map := (h.map Prod.fst).nodup_iff.1 ha
  cases hg : b.get k with
  | some c => exact get_mem ha (e := (k, c)) (h.mem_iff.2 (get_some hg))
  | none =>
    cases hg' : a.get k with
    | none => rfl
    | some c => rw [get_mem hb (e := (k, c)) (h.mem_iff.1 (get_some hg'))] at hg; cases hg

theorem perm_of_get {a b : Entries} (ha : a.Map) (hb : b.Map) (h : ∀ k, a.get k = b.get k) : a.Perm b := by
  have nd : ∀ {l : Entries}, l.Map → l.Nodup := fun {l} hl => by
    unfold Entries.Map at hl
    rw [List.nodup_iff_pairwise_ne, List.pairwise_map] at hl
    exact List.nodup_iff_pairwise_ne.2 (hl.imp fun h e => h (by rw [e]))
  rw [List.perm_ext_iff_of_nodup (nd ha) (nd hb)]
  intro e
  constructor
  · intro he; have := get_mem ha he; rw [h] at this; exact get_some this
  · intro he; have := get_mem hb he; rw [← h] at this; exact get_some this

theorem parseBlocks_entries : ∀ (l es : Entries), (∀ e ∈ l, GoodKey e.1 ∧ GoodContent e.2) → (es ++ l).Map →
    parseBlocks es ((l.map fun e => block e.1 e.2) ++ [[]]) = es ++ l
  | [], es, _, _ => by simp [parseBlocks, parseBlock, trimLeft, cut]
  | e :: l, es, h, hm => by
    have he := h e (by simp)
    have hnew : e.1 ∉ es.map Prod.fst := by
      unfold Entries.Map at hm
      rw [List.map_append, List.nodup_append] at hm
      intro hmem
      exact hm.2.2 _ hmem e.1 (by simp) rfl
    rw [List.map_cons, List.cons_append, parseBlocks, parseBlock_block he.1 he.2]
    simp only
    rw [set_new es e.1 e.2 hnew, parseBlocks_entries l (es ++ [(e.1, e.2)]) (fun x hx => h x (List.mem_cons_of_mem _ hx)) (by simpa using hm)]
    simp

/-- what is written, with the contents -/
def written (sorter : Sorter compareKeys) (keys : List Bytes) (es : Entries) : Entries := (sorter.sort keys).map fun k => (k, (es.get k).getD [])

theorem render_eq (sorter : Sorter compareKeys) (keys : List Bytes) (es : Entries) :
    render sorter keys es = (written sorter keys es).flatMap fun e => entryText e.1 e.2 := by
  unfold render written
  rw [List.flatMap_map]

theorem written_perm (sorter : Sorter compareKeys) (keys : List Bytes) (es : Entries) (hm : es.Map) (hk : keys.Perm (es.map Prod.fst)) : (written sorter keys es).Perm es := by
  have h1 : (written sorter keys es).Perm ((es.map Prod.fst).map fun k => (k, (es.get k).getD [])) := ((sorter.perm keys).trans hk).map _
  have h2 : ((es.map Prod.fst).map fun k => (k, (es.get k).getD [])) = es := by
    rw [List.map_map]
    conv => rhs; rw [← List.map_id es]
    apply List.map_congr_left
    intro e he
    simp [get_mem hm he]
  rwa [h2] at h1

/-- **C124** What is written is read again: the same keys with the same contents, whatever order the map's keys are listed in -/
theorem round_trip (sorter : Sorter compareKeys) (keys : List Bytes) (es : Entries) (hg : es.Good) (hk : keys.Perm (es.map Prod.fst)) :
    (parse (render sorter keys es)).Perm es ∧ ∀ k, (parse (render sorter keys es)).get k = es.get k := by
  have hp := written_perm sorter keys es hg.1 hk
  have hgood : ∀ e ∈ written sorter keys es, GoodKey e.1 ∧ GoodContent e.2 := fun e he => hg.2 e (hp.mem_iff.1 he)
  have hmap : (written sorter keys es).Map := (hp.map Prod.fst).nodup_iff.2 hg.1
  have he : parse (render sorter keys es) = written sorter keys es := by
    unfold parse
    rw [render_eq, blocks_entries _ hgood]
    have := parseBlocks_entries (written sorter keys es) [] hgood hmap
    simpa using this
  rw [he]
  exact ⟨hp, get_perm hmap hp⟩

/-- **C123** The text depends on the entries only, not on the order in which the map's keys are listed or on how they are sorted -/
theorem render_deterministic (s s' : Sorter compareKeys) (keys keys' : List Bytes) (es es' : Entries) (hm : es.Map) (hes : es.Perm es')
    (hk : keys.Perm (es.map Prod.fst)) (hk' : keys'.Perm (es'.map Prod.fst)) : render s keys es = render s' keys' es' := by
  have hsorted : s.sort keys = s'.sort keys' := by
    apply List.Perm.eq_of_pairwise (le := fun a b => compareKeys a b ≤ 0)
    · intro a b _ _ h1 h2
      have := (compare_order a b a).1
      have := (compare_order b a b).1
      exact (compare_natural a b).2.1.1 (by omega)
    · exact s.sorted keys
    · exact s'.sorted keys'
    · exact (s.perm keys).trans (hk.trans ((hes.map Prod.fst).trans (hk'.symm.trans (s'.perm keys').symm)))
  unfold render
  rw [hsorted]
  congr 1
  funext k
  rw [get_perm hm hes k]

/-- **C123** In the file the entries are in the natural order of their keys, each key once -/
theorem written_sorted (sorter : Sorter compareKeys) (keys : List Bytes) (es : Entries) (hm : es.Map) (hk : keys.Perm (es.map Prod.fst)) :
    ∃ l : Entries, l.Perm es ∧ l.Pairwise (fun a b => Before (tokens a.1) (tokens b.1)) ∧ render sorter keys es = l.flatMap fun e => entryText e.1 e.2 := by
  refine ⟨written sorter keys es, written_perm sorter keys es hm hk, ?_, render_eq sorter keys es⟩
  unfold written
  rw [List.pairwise_map]
  have hnd : (sorter.sort keys).Nodup := ((sorter.perm keys).trans hk).nodup_iff.2 hm
  refine ((sorter.sorted keys).and (List.nodup_iff_pairwise_ne.1 hnd)).imp ?_
  intro a b ⟨h1, h2⟩
  have : compareKeys a b ≠ 0 := fun h => h2 ((compare_natural a b).2.1.1 h)
  exact (compare_natural a b).1.1 (by omega)

/-! ### Matching -/

theorem parseBlocks_map : ∀ (bs : List Bytes) (es : Entries), es.Map → (parseBlocks es bs).Map
  | [], _, h => h
  | b :: bs, es, h => by
    rw [parseBlocks]
    cases parseBlock b with
    | none => exact parseBlocks_map bs es h
    | some p => exact parseBlocks_map bs _ (set_map h p.1 p.2)

theorem parse_map (d : Bytes) : (parse d).Map := parseBlocks_map _ _ List.nodup_nil

theorem load_fresh (f : File) : load f.fresh = load ⟨f.disk, none⟩ := rfl

theorem load_map {f : File} (h : f.Map) : (load f).Map := by
  unfold load
  cases hm : f.memory with
  | some es => exact h es hm
  | none => cases f.disk with
    | some d => exact parse_map d
    | none => exact List.nodup_nil

theorem step_written (sorter : Sorter compareKeys) (f : File) (c : Call) (h : c.writes (load f)) :
    step sorter f c = ({ disk := some (render sorter (c.order (((load f).set c.key c.content).map Prod.fst)) ((load f).set c.key c.content)), memory := some ((load f).set c.key c.content) }, .written) := by
  have : (if c.update then none else (load f).get c.key) = none := by
    rcases h with h | h
    · rw [if_pos h]
    · rw [h]; simp
  unfold step
  simp only [this]

theorem step_kept (sorter : Sorter compareKeys) (f : File) (c : Call) (x : Bytes) (hu : c.update = false) (h : (load f).get c.key = some x) :
    step sorter f c = ({ f with memory := some (load f) }, if x ≠ c.content then .mismatch else .same) := by
  unfold step
  simp only [hu, Bool.false_eq_true, if_false, h]

theorem writes_or (c : Call) (es : Entries) : c.writes es ∨ ∃ x, c.update = false ∧ es.get c.key = some x := by
  unfold Call.writes
  cases hu : c.update
  · cases h : es.get c.key with
    | none => exact .inl (.inr rfl)
    | some x => exact .inr ⟨x, rfl, rfl⟩
  · exact .inl (.inl rfl)

theorem load_some (d : Option Bytes) (es : Entries) : load { disk := d, memory := some es } = es := rfl

theorem step_load (sorter : Sorter compareKeys) (f : File) (c : Call) (k : Bytes) :
    (load (step sorter f c).1).get k =
      if c.key = k then nextContent c ((load f).get k) else (load f).get k := by
  rcases writes_or c (load f) with h | ⟨x, hu, h⟩
  · rw [step_written sorter f c h]
    simp only [load_some]
    rw [get_set]
    by_cases hk : c.key = k
    · rw [if_pos hk, if_pos hk]
      subst hk
      rcases h with h | h
      · cases (load f).get c.key <;> simp [nextContent, h]
      · rw [h]; rfl
    · rw [if_neg hk, if_neg hk]
  · rw [step_kept sorter f c x hu h]
    simp only [load_some]
    by_cases hk : c.key = k
    · rw [if_pos hk]
      subst hk
      simp [h, nextContent, hu]
    · rw [if_neg hk]

theorem step_map {sorter : Sorter compareKeys} {f : File} {c : Call} (h : f.Map) : (step sorter f c).1.Map := by
  rcases writes_or c (load f) with hw | ⟨x, hu, hx⟩
  · rw [step_written sorter f c hw]
    intro es he
    simp only [Option.some.injEq] at he
    subst he
    exact set_map (load_map h) _ _
  · rw [step_kept sorter f c x hu hx]
    intro es he
    simp only [Option.some.injEq] at he
    subst he
    exact load_map h

/-- **C125** What is remembered for a key: the first content, until an update -/
theorem run_load (sorter : Sorter compareKeys) (f : File) (cs : List Call) (k : Bytes) : (load (run sorter f cs).1).get k = outcomeFor k ((load f).get k) cs := by
  induction cs generalizing f with
  | nil => rfl
  | cons c cs ih =>
    rw [run, outcomeFor]
    simp only
    rw [ih, step_load]

theorem run_map {sorter : Sorter compareKeys} : ∀ {cs : List Call} {f : File}, f.Map → (run sorter f cs).1.Map
  | [], _, h => h
  | c :: cs, f, h => run_map (cs := cs) (f := (step sorter f c).1) (step_map h)

theorem step_rendered {sorter : Sorter compareKeys} {f : File} {c : Call} (ho : c.Lists) (h : c.writes (load f) ∨ Rendered sorter f) : Rendered sorter (step sorter f c).1 := by
  rcases writes_or c (load f) with hw | ⟨x, hu, hx⟩
  · rw [step_written sorter f c hw]
    exact ⟨_, ho _, rfl⟩
  · rw [step_kept sorter f c x hu hx]
    rcases h with h | h
    · rcases h with h | h
      · rw [h] at hu; cases hu
      · rw [h] at hx; cases hx
    · exact h

theorem run_rendered {sorter : Sorter compareKeys} : ∀ {cs : List Call} {f : File}, (∀ c ∈ cs, c.Lists) → Rendered sorter f → Rendered sorter (run sorter f cs).1
  | [], _, _, h => h
  | c :: cs, f, ho, h => run_rendered (cs := cs) (f := (step sorter f c).1) (fun x hx => ho x (List.mem_cons_of_mem _ hx)) (step_rendered (ho c (by simp)) (.inr h))

/-- **C125** The disk: as it was if no call writes, else the text of what is remembered -/
theorem run_disk (sorter : Sorter compareKeys) (f : File) (cs : List Call) (ho : ∀ c ∈ cs, c.Lists) :
    ((∃ c ∈ cs, c.writes (load f)) → Rendered sorter (run sorter f cs).1) ∧ ((¬ ∃ c ∈ cs, c.writes (load f)) → (run sorter f cs).1.disk = f.disk) := by
  induction cs generalizing f with
  | nil => exact ⟨fun ⟨_, h, _⟩ => by simp at h, fun _ => rfl⟩
  | cons c cs ih =>
    have ho' : ∀ c ∈ cs, c.Lists := fun x hx => ho x (List.mem_cons_of_mem _ hx)
    rw [run]
    simp only
    rcases writes_or c (load f) with hw | ⟨x, hu, hx⟩
    · exact ⟨fun _ => run_rendered ho' (step_rendered (ho c (by simp)) (.inl hw)), fun h => absurd ⟨c, by simp, hw⟩ h⟩
    · have hl : load (step sorter f c).1 = load f := by rw [step_kept sorter f c x hu hx]; rfl
      have hd : (step sorter f c).1.disk = f.disk := by rw [step_kept sorter f c x hu hx]
      have hn : ¬ c.writes (load f) := by
        rintro (h | h)
        · rw [h] at hu; cases hu
        · rw [h] at hx; cases hx
      have := ih (step sorter f c).1 ho'
      rw [hl, hd] at this
      constructor
      · rintro ⟨y, hy, hw⟩
        rcases List.mem_cons.1 hy with rfl | hy
        · exact absurd hw hn
        · exact this.1 ⟨y, hy, hw⟩
      · intro h
        exact this.2 fun ⟨y, hy, hw⟩ => h ⟨y, List.mem_cons_of_mem _ hy, hw⟩

theorem outcomeFor_filter (k : Bytes) : ∀ (cs : List Call) (start : Option Bytes), outcomeFor k start cs = outcomeFor k start (cs.filter fun c => c.key == k)
  | [], _ => rfl
  | c :: cs, start => by
    rw [outcomeFor, outcomeFor_filter k cs, List.filter_cons]
    by_cases h : c.key = k
    · rw [if_pos h, if_pos (by simp [h]), outcomeFor, if_pos h]
    · rw [if_neg h, if_neg (by simp [h])]

theorem outcomeFor_what (k : Bytes) : ∀ (cs ds : List Call) (start : Option Bytes), cs.map Call.what = ds.map Call.what → outcomeFor k start cs = outcomeFor k start ds
  | [], [], _, _ => rfl
  | [], _ :: _, _, h => by simp at h
  | _ :: _, [], _, h => by simp at h
  | c :: cs, d :: ds, start, h => by
    simp only [List.map_cons, List.cons.injEq, Call.what, Prod.mk.injEq] at h
    obtain ⟨⟨h1, h2, h3⟩, h4⟩ := h
    have hn : nextContent c start = nextContent d start := by cases start <;> simp [nextContent, h2, h3]
    rw [outcomeFor, outcomeFor, h1, hn, outcomeFor_what k cs ds _ h4]

theorem sameByKey_symm {cs ds : List Call} (h : SameByKey cs ds) : SameByKey ds cs := fun k => (h k).symm

theorem writes_transfer {cs ds : List Call} (h : SameByKey cs ds) (es : Entries) (hw : ∃ c ∈ cs, c.writes es) : ∃ c ∈ ds, c.writes es := by
  obtain ⟨c, hc, hw⟩ := hw
  have hm : c.what ∈ (cs.filter fun x => x.key == c.key).map Call.what := List.mem_map_of_mem (List.mem_filter.2 ⟨hc, by simp⟩)
  rw [h c.key] at hm
  obtain ⟨d, hd, he⟩ := List.mem_map.1 hm
  refine ⟨d, (List.mem_filter.1 hd).1, ?_⟩
  simp only [Call.what, Prod.mk.injEq] at he
  unfold Call.writes
  rw [he.1, he.2.2]
  exact hw

/-- **C125** Parallel tests: in whatever order they get the lock, and however maps are listed and sorted, the file is the same, if the calls for each key come in the same order -/
theorem schedule (sorter sorter' : Sorter compareKeys) (f : File) (cs ds : List Call) (hf : f.Map) (hc : ∀ c ∈ cs, c.Lists) (hd : ∀ c ∈ ds, c.Lists) (h : SameByKey cs ds) :
    (run sorter f cs).1.disk = (run sorter' f ds).1.disk := by
  have h1 := run_disk sorter f cs hc
  have h2 := run_disk sorter' f ds hd
  by_cases hw : ∃ c ∈ cs, c.writes (load f)
  · obtain ⟨ks, hk, e1⟩ := h1.1 hw
    obtain ⟨ks', hk', e2⟩ := h2.1 (writes_transfer h _ hw)
    rw [e1, e2]
    have m1 : (load (run sorter f cs).1).Map := load_map (run_map hf)
    have m2 : (load (run sorter' f ds).1).Map := load_map (run_map hf)
    refine congrArg some (render_deterministic sorter sorter' ks ks' _ _ m1 (perm_of_get m1 m2 fun k => ?_) hk hk')
    rw [run_load, run_load, outcomeFor_filter, outcomeFor_filter k ds, outcomeFor_what k _ _ _ (h k)]
  · have hw' : ¬ ∃ c ∈ ds, c.writes (load f) := fun hw' => hw (writes_transfer (sameByKey_symm h) _ hw')
    rw [h1.2 hw, h2.2 hw']

theorem run_good {sorter : Sorter compareKeys} : ∀ {cs : List Call} {f : File}, (load f).Good → (∀ c ∈ cs, GoodKey c.key ∧ GoodContent c.content) → (load (run sorter f cs).1).Good
  | [], _, h, _ => h
  | c :: cs, f, h, hc => by
    refine run_good (cs := cs) (f := (step sorter f c).1) ?_ (fun x hx => hc x (List.mem_cons_of_mem _ hx))
    rcases writes_or c (load f) with hw | ⟨x, hu, hx⟩
    · rw [step_written sorter f c hw]
      simp only [load_some]
      refine ⟨set_map h.1 _ _, fun e he => ?_⟩
      rcases mem_set he with rfl | he
      · exact hc c (by simp)
      · exact h.2 e he
    · rw [step_kept sorter f c x hu hx]
      exact h

/-- **C125** After any calls with contents that can be stored, a new process reads what was remembered: for each key the first content, or that of the last update -/
theorem run_persists (sorter : Sorter compareKeys) (d : Option Bytes) (cs : List Call) (hg : (load ⟨d, none⟩).Good) (ho : ∀ c ∈ cs, c.Lists)
    (hc : ∀ c ∈ cs, GoodKey c.key ∧ GoodContent c.content) (k : Bytes) :
    (load (run sorter ⟨d, none⟩ cs).1.fresh).get k = outcomeFor k ((load ⟨d, none⟩).get k) cs := by
  have h := run_disk sorter ⟨d, none⟩ cs ho
  by_cases hw : ∃ c ∈ cs, c.writes (load ⟨d, none⟩)
  · obtain ⟨ks, hk, e⟩ := h.1 hw
    rw [← run_load sorter]
    have hgood : (load (run sorter ⟨d, none⟩ cs).1).Good := run_good hg hc
    have : load (run sorter ⟨d, none⟩ cs).1.fresh = parse (render sorter ks (load (run sorter ⟨d, none⟩ cs).1)) := by
      rw [load_fresh, e]; rfl
    rw [this]
    exact (round_trip sorter ks _ hgood hk).2 k
  · have e := h.2 hw
    have : load (run sorter ⟨d, none⟩ cs).1.fresh = load ⟨d, none⟩ := by
      rw [load_fresh, e]
    rw [this, ← run_load sorter]
    -- nothing was written: what is remembered is what was read
    have keep : ∀ (cs : List Call) (f : File), (¬ ∃ c ∈ cs, c.writes (load f)) → load (run sorter f cs).1 = load f := by
      intro cs
      induction cs with
      | nil => intro f _; rfl
      | cons c cs ih =>
        intro f hn
        rcases writes_or c (load f) with hw | ⟨x, hu, hx⟩
        · exact absurd ⟨c, by simp, hw⟩ hn
        · have hl : load (step sorter f c).1 = load f := by rw [step_kept sorter f c x hu hx]; rfl
          rw [run]
          simp only
          rw [ih _ (by rw [hl]; exact fun ⟨y, hy, hy'⟩ => hn ⟨y, List.mem_cons_of_mem _ hy, hy'⟩), hl]
    rw [keep cs _ hw]

/-- **C125** Without updates, a call whose key has a content writes nothing: it passes exactly if the content is the same -/
theorem no_update_keeps (sorter : Sorter compareKeys) (f : File) (c : Call) (x : Bytes) (hu : c.update = false) (h : (load f).get c.key = some x) :
    (step sorter f c).1.disk = f.disk ∧ load (step sorter f c).1 = load f ∧ ((step sorter f c).2 = .same ↔ c.content = x) ∧ ((step sorter f c).2 = .mismatch ↔ c.content ≠ x) := by
  rw [step_kept sorter f c x hu h]
  refine ⟨rfl, rfl, ?_, ?_⟩
  · by_cases hx : x = c.content
    · simp [hx]
    · simp [hx, Ne.symm hx]
  · by_cases hx : x = c.content
    · simp [hx]
    · simp [hx, Ne.symm hx]

/-- **C125** A second run, in a new process and without updates, with the contents that were last stored passes and leaves the disk as it is -/
theorem second_run (sorter : Sorter compareKeys) (d : Option Bytes) (cs : List Call) (hg : (load ⟨d, none⟩).Good) (ho : ∀ c ∈ cs, c.Lists)
    (hc : ∀ c ∈ cs, GoodKey c.key ∧ GoodContent c.content) (ds : List Call)
    (hd : ∀ c ∈ ds, c.update = false ∧ outcomeFor c.key ((load ⟨d, none⟩).get c.key) cs = some c.content) :
    (run sorter (run sorter ⟨d, none⟩ cs).1.fresh ds).1.disk = (run sorter ⟨d, none⟩ cs).1.disk ∧
      ∀ o ∈ (run sorter (run sorter ⟨d, none⟩ cs).1.fresh ds).2, o = .same := by
  have hp := run_persists sorter d cs hg ho hc
  have key : ∀ (ds : List Call) (f : File), (∀ c ∈ ds, c.update = false ∧ (load f).get c.key = some c.content) →
      (run sorter f ds).1.disk = f.disk ∧ ∀ o ∈ (run sorter f ds).2, o = .same := by
    intro ds
    induction ds with
    | nil => intro f _; exact ⟨rfl, by simp [run]⟩
    | cons c ds ih =>
      intro f h
      obtain ⟨hu, hx⟩ := h c (by simp)
      obtain ⟨k1, k2, k3, _⟩ := no_update_keeps sorter f c _ hu hx
      have := ih (step sorter f c).1 (by rw [k2]; exact fun y hy => h y (List.mem_cons_of_mem _ hy))
      rw [run]
      simp only
      refine ⟨this.1.trans k1, fun o ho => ?_⟩
      rcases List.mem_cons.1 ho with rfl | ho
      · exact k3.2 rfl
      · exact this.2 o ho
  exact key ds _ fun c hcd => ⟨(hd c hcd).1, by rw [hp]; exact (hd c hcd).2⟩

/-! ### Examples -/

theorem blocks_nonempty : ∀ s : Bytes, 1 ≤ (blocks s).length
  | [] => by simp [blocks]
  | c :: s => by
    rw [blocks.eq_def]
    simp only
    split
    · simp
    · cases blocks s <;> simp

theorem separated_blocks : ∀ a b : Bytes, 2 ≤ (blocks (a ++ sep ++ b)).length
  | [], b => by
    rw [List.nil_append, blocks_sep]
    have := blocks_nonempty b
    simp only [List.length_cons]
    omega
  | c :: a, b => by
    have ih := separated_blocks a b
    by_cases h : ∃ r, c :: (a ++ sep ++ b) = sep ++ r
    · obtain ⟨r, h⟩ := h
      rw [List.cons_append, List.cons_append, h, blocks_sep]
      have := blocks_nonempty r
      simp only [List.length_cons]
      omega
    · rw [List.cons_append, List.cons_append, blocks_cons c _ h]
      cases hb : blocks (a ++ sep ++ b) with
      | nil => rw [hb] at ih; simp at ih
      | cons x xs => rw [hb] at ih; simpa using ih

theorem not_separated {s : Bytes} (h : (blocks s).length = 1) : ¬ Separated s := by
  rintro ⟨a, b, rfl⟩
  have := separated_blocks a b
  unfold sep at this
  omega

def ofString (s : String) : Bytes := s.toList.map fun c => c.toNat.toUInt8

/-- sorting by any of the library's algorithms is possible -/
def sampleSorter : Sorter compareKeys :=
  Sorter.ofMergeSort compareKeys (fun a b c => (compare_order a b c).2.1) fun a b => by
    have := (compare_order a b a).1
    have := (compare_order b a b).1
    omega

/-- two entries: `invalid-10`, `invalid-2` -/
def sampleEntries : Entries := [(ofString "[TestX/invalid-10 - 1]", ofString "Diagnostic 1: a\n--- b"), (ofString "[TestX/invalid-2 - 1]", ofString "")]

theorem sampleGood : sampleEntries.Good := by
  refine ⟨by unfold Entries.Map; decide +kernel, ?_⟩
  intro e he
  simp only [sampleEntries, List.mem_cons, List.not_mem_nil, or_false] at he
  rcases he with rfl | rfl
  · exact ⟨⟨by decide +kernel, by decide +kernel, by decide +kernel⟩, not_separated (by decide +kernel), by decide +kernel⟩
  · exact ⟨⟨by decide +kernel, by decide +kernel, by decide +kernel⟩, not_separated (by decide +kernel), by decide +kernel⟩

example : (parse (render sampleSorter (sampleEntries.map Prod.fst) sampleEntries)).get (ofString "[TestX/invalid-10 - 1]") = some (ofString "Diagnostic 1: a\n--- b") := by
  rw [(round_trip _ _ _ sampleGood (List.Perm.refl _)).2]; decide +kernel
example : compareKeys (ofString "[TestX/invalid-2 - 1]") (ofString "[TestX/invalid-10 - 1]") = -1 := by decide +kernel
example : compareKeys (ofString "a01") (ofString "a1") = 1 := by decide +kernel
example : tokens (ofString "x-012y") = [(2, 120, 0), (0, 45, 0), (1, 12, 3), (2, 121, 0)] := by decide +kernel
example : compareKeys (ofString "invalid-" ++ ofString "9" ++ ofString " - 1]") (ofString "invalid-" ++ ofString "123456789012345678901234567890" ++ ofString " - 1]") < 0 := by
  apply numbers_in_order <;> (try unfold Digits) <;> decide +kernel

/-- two tests that run in parallel, and one that runs again with an update -/
def sampleCalls : List Call := [⟨ofString "[b - 1]", ofString "1", false, id⟩, ⟨ofString "[a - 1]", ofString "2", false, List.reverse⟩, ⟨ofString "[b - 1]", ofString "3", true, id⟩]
def sampleCalls' : List Call := [⟨ofString "[a - 1]", ofString "2", false, id⟩, ⟨ofString "[b - 1]", ofString "1", false, id⟩, ⟨ofString "[b - 1]", ofString "3", true, List.reverse⟩]

theorem sampleSame : SameByKey sampleCalls sampleCalls' := by
  intro k
  by_cases h1 : ofString "[b - 1]" = k <;> by_cases h2 : ofString "[a - 1]" = k
  · exact absurd (h1.trans h2.symm) (by decide +kernel)
  · subst h1; decide +kernel
  · subst h2; decide +kernel
  · simp [sampleCalls, sampleCalls', h1, h2]

example : (run sampleSorter ⟨none, none⟩ sampleCalls).1.disk = (run sampleSorter ⟨none, none⟩ sampleCalls').1.disk := by
  apply schedule _ _ _ _ _ _ _ _ sampleSame
  · intro es h; cases h
  · intro c hc
    simp only [sampleCalls, List.mem_cons, List.not_mem_nil, or_false] at hc
    rcases hc with rfl | rfl | rfl
    · exact fun _ => .refl _
    · exact fun ks => List.reverse_perm ks
    · exact fun _ => .refl _
  · intro c hc
    simp only [sampleCalls', List.mem_cons, List.not_mem_nil, or_false] at hc
    rcases hc with rfl | rfl | rfl
    · exact fun _ => .refl _
    · exact fun _ => .refl _
    · exact fun ks => List.reverse_perm ks
example : outcomeFor (ofString "[b - 1]") none sampleCalls = some (ofString "3") := by decide +kernel
example : (run sampleSorter ⟨none, none⟩ (sampleCalls.take 2 ++ [⟨ofString "[b - 1]", ofString "4", false, id⟩])).2 = [.written, .written, .mismatch] := by decide +kernel

/-- **C124** (finding) A line of the content that ends in `---`, like a comment in the code that is shown, is not read again: all from it on is lost -/
theorem dashes_lost : ∃ (k c : Bytes), GoodKey k ∧ c.getLast? ≠ some newline ∧ (parse (entryText k c)).get k = some (ofString "   1 | //") ∧ c = ofString "   1 | //---\n   2 | x" :=
  ⟨ofString "[a - 1]", ofString "   1 | //---\n   2 | x", ⟨by decide +kernel, by decide +kernel, by decide +kernel⟩, by decide +kernel, by decide +kernel, rfl⟩

end Tsgolint.Snapshot
