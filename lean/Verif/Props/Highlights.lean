import Verif.Spec.Highlights
/-! # C141: what diagnostics point to -/
namespace Tsgolint.Highlights
open Fixer (Bytes ascii)

theorem text_middle (p m r : Bytes) : Range.text (p ++ m ++ r) ⟨p.length, p.length + m.length⟩ = m := by
  simp [Range.text, List.append_assoc]

theorem text_of {code p m r : Bytes} {range : Range} (h : code = p ++ m ++ r) (h1 : range.pos = p.length) (h2 : range.stop = p.length + m.length) :
    range.text code = m := by
  obtain ⟨a, b⟩ := range
  subst h; simp only at h1 h2; subst h1 h2
  exact text_middle p m r

/-- C141 (nodes).  A node is highlighted from its first token to its end, without the white space and comments before it. -/
theorem C141_node (token : Scanner) (before gap first more after : Bytes) (h : Reads token before gap first) :
    (trim token (at' before gap (first ++ more))).text (before ++ gap ++ (first ++ more) ++ after) = first ++ more := by
  refine text_of (p := before ++ gap) (m := first ++ more) (r := after) (by simp) ?_ ?_ <;> simp [trim, at', h, Reads] at h ⊢
  simp [h]

/-- C141 (loops).  Of `for (…) body` the text `for (…)` is highlighted: neither white space nor comments before the loop or its body. -/
theorem C141_loop (token : Scanner) (before gap head bodyGap body after : Bytes) (first rest : Bytes) (hf : head = first ++ rest) (h : Reads token before gap first) :
    (forHead token (at' before gap (head ++ bodyGap ++ body)) (at' (before ++ gap ++ head) bodyGap body)).text
      (before ++ gap ++ (head ++ bodyGap ++ body) ++ after) = head := by
  unfold Reads at h
  refine text_of (p := before ++ gap) (m := head) (r := bodyGap ++ body ++ after) (by simp) ?_ ?_ <;> simp [forHead, trim, at', h, Nat.add_assoc]

/-- C141 (functions).  Of a function that is no arrow function the text from its first modifier that is no decorator up to the `(` of its parameters is highlighted. -/
theorem C141_function (token : Scanner) (before gap : Bytes) (decorators : List Item) (m : Item) (more : List Item) (name rest after : Bytes)
    (hd : ∀ i ∈ decorators, i.decorator = true) (hm : m.decorator = false) (node : Place) :
    let upTo := before ++ gap ++ (decorators.flatMap Item.print) ++ m.gap
    let head := m.text ++ more.flatMap Item.print ++ name
    (functionHead token { arrow := none, params := some ((upTo ++ head).length + 1), node, modifiers := places (before ++ gap) (decorators ++ m :: more) }).text
      (upTo ++ head ++ ascii "(" ++ rest ++ after) = head := by
  intro upTo head
  have hfind : ∀ (ds : List Item) (b : Bytes), (∀ i ∈ ds, i.decorator = true) →
      (places b (ds ++ m :: more)).find? (!·.decorator) = some ⟨false, at' (b ++ ds.flatMap Item.print) m.gap m.text⟩ := by
    intro ds
    induction ds with
    | nil => intro b _; simp [places, hm]
    | cons d ds ih =>
      intro b h
      rw [List.cons_append, places, List.find?_cons, h d (by simp), ih _ (fun i hi => h i (by simp [hi]))]
      simp [Item.print]
  have hs : headStart { arrow := none, params := some ((upTo ++ head).length + 1), node, modifiers := places (before ++ gap) (decorators ++ m :: more) } = upTo.length := by
    unfold headStart
    simp only [hfind decorators (before ++ gap) hd]
    simp [at', upTo, Nat.add_assoc]
  unfold functionHead
  simp only [hs]
  rw [if_neg (by simp)]
  exact text_of (p := upTo) (m := head) (r := ascii "(" ++ rest ++ after) (by simp) rfl (by simp)

/-- C141 (functions without modifiers).  Without modifiers, from the first token of the function; also where all modifiers are decorators, which are then
highlighted with the rest. -/
theorem C141_function_plain (token : Scanner) (before gap : Bytes) (decorators : List Item) (head rest after : Bytes) (hd : ∀ i ∈ decorators, i.decorator = true)
    (start : Bytes) (stop : Nat) :
    (functionHead token { arrow := none, params := some ((before ++ gap ++ head).length + 1), node := Place.mk before.length (before ++ gap).length stop, modifiers := places start decorators }).text (before ++ gap ++ head ++ ascii "(" ++ rest ++ after) = head := by
  have hfind : ∀ (ds : List Item) (b : Bytes), (∀ i ∈ ds, i.decorator = true) → (places b ds).find? (!·.decorator) = none := by
    intro ds
    induction ds with
    | nil => intro b _; rfl
    | cons d ds ih => intro b h; rw [places, List.find?_cons, h d (by simp), ih _ (fun i hi => h i (by simp [hi]))]; rfl
  unfold functionHead headStart
  simp only [hfind decorators start hd]
  rw [if_neg (by simp)]
  exact text_of (p := before ++ gap) (m := head) (r := ascii "(" ++ rest ++ after) (by simp) rfl (by simp; omega)

/-- C141 (finding).  Where all modifiers of a method are decorators, they are highlighted too, though where there is another one they are not. -/
theorem C141_hazard_decorator (token : Scanner) :
    (functionHead token { arrow := none, params := some 6, node := ⟨0, 0, 9⟩, modifiers := places [] [⟨true, [], ascii "@d"⟩] }).text (ascii "@d f1() {}") = ascii "@d f1" ∧
    (functionHead token { arrow := none, params := some 12, node := ⟨0, 0, 15⟩, modifiers := places [] [⟨true, [], ascii "@d"⟩, ⟨false, ascii " ", ascii "async"⟩] }).text
      (ascii "@d async f1() {}") = ascii "async f1" := by
  constructor <;> rfl

/-- C141 (finding).  Of an arrow function the arrow is highlighted together with the white space and comments before it (require-await); no-misused-promises
highlights the arrow alone. -/
theorem C141_arrow (token : Scanner) (before gap after : Bytes) (f : Function) (hf : f.arrow = some (at' before gap (ascii "=>"))) (h : Reads token before gap (ascii "=>")) :
    (functionHead token f).text (before ++ gap ++ ascii "=>" ++ after) = gap ++ ascii "=>" ∧
    (promiseRange token true none f).text (before ++ gap ++ ascii "=>" ++ after) = ascii "=>" := by
  unfold functionHead promiseRange
  simp only [hf, if_true]
  constructor
  · exact text_of (p := before) (m := gap ++ ascii "=>") (r := after) (by simp) rfl (by simp [at', Nat.add_assoc])
  · have := C141_node token before gap (ascii "=>") [] after h
    simpa using this

/-- C141 (return types).  no-misused-promises highlights the return type of a function, if it has one. -/
theorem C141_returnType (token : Scanner) (before gap first more after : Bytes) (f : Function) (h : Reads token before gap first) :
    (promiseRange token true (some (at' before gap (first ++ more))) f).text (before ++ gap ++ (first ++ more) ++ after) = first ++ more := by
  unfold promiseRange
  simpa using C141_node token before gap first more after h

/-- C141 (assertions).  Of `expression as type` the text `as type` is highlighted. -/
theorem C141_as (token : Scanner) (before expressionGap expression gap keyword typeGap type after : Bytes) (node : Place)
    (h : Reads token (before ++ expressionGap ++ expression) gap keyword) :
    (assertion token true node (at' before expressionGap expression) (at' (before ++ expressionGap ++ expression ++ gap ++ keyword) typeGap type)).text
      (before ++ expressionGap ++ expression ++ gap ++ keyword ++ typeGap ++ type ++ after) = keyword ++ typeGap ++ type := by
  unfold Reads at h
  refine text_of (p := before ++ expressionGap ++ expression ++ gap) (m := keyword ++ typeGap ++ type) (r := after) (by simp) ?_ ?_
  · simp only [List.length_append] at h
    simp [assertion, at', h, Nat.add_assoc]
    simp only [← Nat.add_assoc, h]
  · simp [assertion, at', Nat.add_assoc]

/-- C141 (assertions).  Of `<type>expression` the text `<type>` is highlighted. -/
theorem C141_angle (token : Scanner) (before gap typeGap type closeGap rest : Bytes) (node expression : Place) (hn : node.full = before.length)
    (h1 : Reads token before gap (ascii "<")) (h2 : Reads token (before ++ gap ++ ascii "<" ++ typeGap ++ type) closeGap (ascii ">")) :
    (assertion token false node expression (at' (before ++ gap ++ ascii "<") typeGap type)).text
      (before ++ gap ++ ascii "<" ++ typeGap ++ type ++ closeGap ++ ascii ">" ++ rest) = ascii "<" ++ typeGap ++ type ++ closeGap ++ ascii ">" := by
  unfold Reads at h1 h2
  refine text_of (p := before ++ gap) (m := ascii "<" ++ typeGap ++ type ++ closeGap ++ ascii ">") (r := rest) (by simp) ?_ ?_
  · simp [assertion, hn, h1]
  · have e : (at' (before ++ gap ++ ascii "<") typeGap type).stop = (before ++ gap ++ ascii "<" ++ typeGap ++ type).length := by simp [at', Nat.add_assoc]
    simp only [assertion, Bool.false_eq_true, if_false, e, h2]
    simp [Nat.add_assoc]

/-- C141 (assertions).  Of `expression!` the `!` is highlighted. -/
theorem C141_exclamation (token : Scanner) (before expressionGap expression gap rest : Bytes) (h : Reads token (before ++ expressionGap ++ expression) gap (ascii "!")) :
    (exclamation token (at' before expressionGap expression)).text (before ++ expressionGap ++ expression ++ gap ++ ascii "!" ++ rest) = ascii "!" := by
  have e : (at' before expressionGap expression).stop = (before ++ expressionGap ++ expression).length := by simp [at', Nat.add_assoc]
  unfold Reads at h
  refine text_of (p := before ++ expressionGap ++ expression ++ gap) (m := ascii "!") (r := rest) (by simp) ?_ ?_ <;> simp only [exclamation, e, h] <;> simp [Nat.add_assoc]

/-- C141 (members).  Of a class member that could be readonly the text from its first modifier (or decorator) to its name is highlighted, not its type or
initializer; the node reported begins with its first token. -/
theorem C141_member (token : Scanner) (before gap first more nameGap name rest after : Bytes) (h : Reads token before gap first) :
    let declaration := first ++ more ++ nameGap ++ name ++ rest
    let node := readonlyNode token (at' before gap declaration) (at' (before ++ gap ++ first ++ more) nameGap name)
    (Range.mk node.full node.stop).text (before ++ gap ++ declaration ++ after) = first ++ more ++ nameGap ++ name ∧ node.start = node.full := by
  intro declaration node
  unfold Reads at h
  refine ⟨text_of (p := before ++ gap) (m := first ++ more ++ nameGap ++ name) (r := rest ++ after) (by simp [declaration]) ?_ ?_, rfl⟩ <;>
    simp [node, readonlyNode, trim, at', h, Nat.add_assoc]

/-- C141 (parameters).  Of a parameter whose type could be readonly everything is highlighted; of a parameter property not its modifiers. -/
theorem C141_parameter (token : Scanner) (before gap first more after : Bytes) (name? : Option Place) (h : Reads token before gap first) :
    (parameterRange token false name? (at' before gap (first ++ more))).text (before ++ gap ++ (first ++ more) ++ after) = first ++ more :=
  C141_node token before gap first more after h

theorem C141_parameterProperty (token : Scanner) (before gap modifiers nameGap name rest after : Bytes) (h : Reads token (before ++ gap ++ modifiers) nameGap name) :
    (parameterRange token true (some (at' (before ++ gap ++ modifiers) nameGap name)) (at' before gap (modifiers ++ nameGap ++ name ++ rest))).text
      (before ++ gap ++ (modifiers ++ nameGap ++ name ++ rest) ++ after) = name ++ rest := by
  unfold Reads at h
  simp only [List.length_append] at h
  refine text_of (p := before ++ gap ++ modifiers ++ nameGap) (m := name ++ rest) (r := after) (by simp) ?_ ?_
  · simp [parameterRange, trim, at', ← Nat.add_assoc, h]
  · simp [parameterRange, at', ← Nat.add_assoc]

/-- C141 (parentheses).  A function counts as one without parentheses just where it is an arrow function and nothing stands between the parameters and the token
before the arrow: the `)`, and a return type, if there is one, do. -/
theorem C141_parenless (isArrow : Bool) (parameters closing gap : Bytes) :
    parenless isArrow parameters.length (at' (parameters ++ closing) gap (ascii "=>")) = true ↔ isArrow = true ∧ closing = [] := by
  unfold parenless
  cases isArrow
  · simp
  · have : (parameters.length = parameters.length + closing.length) ↔ closing = [] := by
      rw [← List.length_eq_zero_iff]; omega
    simpa [at'] using this

/-! ## Cases -/

/-- A scanner that skips blanks, for tokens of known length -/
def scan (code : Bytes) (length : Nat) : Scanner := fun p =>
  let start := p + ((code.drop p).takeWhile (· == 32)).length
  ⟨start, start + length⟩

example : Reads (scan (ascii "x as T") 2) (ascii "x") (ascii " ") (ascii "as") := rfl
example : (assertion (scan (ascii "f(x  as T);") 2) true (at' (ascii "f(") [] (ascii "x  as T")) (at' (ascii "f(") [] (ascii "x")) (at' (ascii "f(x  as") (ascii " ") (ascii "T"))).text
    (ascii "f(x  as T);") = ascii "as T" := by decide
example : (forHead (scan (ascii "; for (a of b) c();") 3) (at' (ascii ";") (ascii " ") (ascii "for (a of b) c();")) (at' (ascii "; for (a of b)") (ascii " ") (ascii "c();"))).text
    (ascii "; for (a of b) c();") = ascii "for (a of b)" := by decide
example : Reads (scan (ascii "; for (a of b) c();") 3) (ascii ";") (ascii " ") (ascii "for") := rfl
example : Reads (scan (ascii "<T> x") 1) [] [] (ascii "<") ∧ Reads (scan (ascii "<T> x") 1) ([] ++ [] ++ ascii "<" ++ [] ++ ascii "T") [] (ascii ">") := ⟨rfl, rfl⟩
example : Reads (scan (ascii "x !") 1) ([] ++ [] ++ ascii "x") (ascii " ") (ascii "!") := rfl
example : Reads (scan (ascii "(private readonly x: T)") 1) (ascii "(" ++ [] ++ ascii "private readonly") (ascii " ") (ascii "x") := rfl
example : parenless true 1 (at' (ascii "x") (ascii " ") (ascii "=>")) = true ∧ parenless true 2 (at' (ascii "(x)") (ascii " ") (ascii "=>")) = false := by decide

end Tsgolint.Highlights
