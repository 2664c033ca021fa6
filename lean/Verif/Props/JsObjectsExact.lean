import Verif.Props.JsNumbers
/-!
# C70: what every method gives, whatever the tracer code did before
-/
namespace Verif.Props
open Spec

/-- The double nearest to a number, of two the one with the even significand. -/
def Rounded (n m : Nat) : Prop :=
  Representable m ∧ (∀ k, Representable k → dist n m ≤ dist n k) ∧
  ∀ k, Representable k → k ≠ m → dist n k = dist n m →
    ∃ q e, q % 2 = 0 ∧ 2 ^ 52 ≤ q ∧ q < 2 ^ 53 ∧ m = q * 2 ^ e

/-- What is left of an array after the writes of tracer code. -/
def afterWrites (cell : Nat) : List JsCode → Bytes → Bytes
  | [], b => b
  | .write c i x :: cs, b => afterWrites cell cs (if c = cell then b.set i x else b)
  | _ :: cs, b => afterWrites cell cs b

/-- What the global `bigint` is after tracer code. -/
def bigintAfter : List JsCode → JsBigint → JsBigint
  | [], g => g
  | .setBigint g' :: cs, _ => bigintAfter cs g'
  | _ :: cs, g => bigintAfter cs g

/-- What is seen of a datum: a number rounded to a double; of the array the object holds what tracer
code left of it; of a value what the global `bigint` makes of it; everything else as it is. -/
def Sees (g : JsBigint) (left : Bytes → Bytes) (o : JsMethods) (w : JsObjWorld) (name : String) :
    Datum → Prop
  | .number n => ∃ m, Rounded n m ∧ Gives o w name (.number m)
  | .bytes b => Gives o w name (.bytes (if name = "getInput" ∨ name = "getOutput" then left b else b))
  | .big n =>
    match g with
    | .library => Gives o w name (.big n)
    | .notCallable => Gives o w name .undefined
    | .other f => o.callMethod w name = some (w, match f (toString n) with
        | some v => .scalar v
        | none => .throws)
  | d => Gives o w name d

theorem method_arrays (w : JsObjWorld) (m : JsMethodObj) :
    (m.call w).1.bigint = w.bigint ∧
      ∀ (cell : Nat) (b : Bytes), w.arrays[cell]? = some b → (m.call w).1.arrays[cell]? = some b := by
  cases m with
  | value v => exact ⟨rfl, fun _ _ h => h⟩
  | bigint n => exact ⟨rfl, fun _ _ h => h⟩
  | array c => exact ⟨rfl, fun _ _ h => h⟩
  | address a =>
    refine ⟨rfl, fun cell b h => ?_⟩
    show (w.arrays ++ _)[cell]? = some b
    rw [List.getElem?_append_left (List.getElem?_eq_some_iff.1 h).1]
    exact h

theorem runJsCode_exact (cs : List JsCode) : ∀ (w : JsObjWorld) (cell : Nat) (b : Bytes),
    w.arrays[cell]? = some b →
    (runJsCode w cs).bigint = bigintAfter cs w.bigint ∧
      (runJsCode w cs).arrays[cell]? = some (afterWrites cell cs b) := by
  induction cs with
  | nil => intro w cell b h; exact ⟨rfl, h⟩
  | cons c cs ih =>
    intro w cell b h
    simp only [runJsCode]
    cases c with
    | call o name =>
      simp only [bigintAfter, afterWrites, JsCode.run, JsMethods.callMethod]
      cases o.lookup name with
      | none => exact ih w cell b h
      | some m =>
        obtain ⟨h1, h2⟩ := method_arrays w m
        have := ih (m.call w).1 cell b (h2 cell b h)
        rw [h1] at this
        exact this
    | newArray b' =>
      have h' : (w.newArray b').1.arrays[cell]? = some b := by
        show (w.arrays ++ _)[cell]? = some b
        rw [List.getElem?_append_left (List.getElem?_eq_some_iff.1 h).1]
        exact h
      exact ih _ cell b h'
    | write c i x =>
      simp only [bigintAfter, afterWrites, JsCode.run]
      refine ih _ cell _ ?_
      have hlt := (List.getElem?_eq_some_iff.1 h).1
      by_cases hc : c = cell
      · subst hc
        rw [if_pos rfl]
        simp only [h, Option.getD_some]
        rw [List.getElem?_set_self hlt]
      · rw [if_neg hc]
        simp only
        rw [List.getElem?_set_ne hc]
        exact h
    | setBigint g => exact ih { w with bigint := g } cell b h

theorem sees_number {g : JsBigint} {left : Bytes → Bytes} {o : JsMethods} {w : JsObjWorld}
    {name : String} {n : Nat} (h : o.lookup name = some (.value (.ofU64 n))) :
    Sees g left o w name (.number n) :=
  ⟨f64OfU64 n, C70_nearest n, w, .scalar (.ofU64 n), by rw [JsMethods.callMethod, h]; rfl, _, rfl, rfl⟩

theorem sees_error {g : JsBigint} {left : Bytes → Bytes} {o : JsMethods} {w : JsObjWorld}
    {name : String} {e : Option String} (h : o.lookup name = some (.value (.ofError e))) :
    Sees g left o w name (errorDatum e) := by
  have := gives_error (w := w) h
  cases e <;> exact this

theorem sees_value {g : JsBigint} {left : Bytes → Bytes} {o : JsMethods} {w : JsObjWorld} {n : U256}
    (h : o.lookup "getValue" = some (.bigint n)) (hg : w.bigint = g) :
    Sees g left o w "getValue" (.big n.toNat) := by
  obtain ⟨h1, h2, h3⟩ := value_exact o n h w
  subst hg
  unfold Sees
  cases hb : w.bigint with
  | library => exact h1 hb
  | notCallable => exact h2 hb
  | other f => exact h3 f hb

/-- **C70, exactly.** Every method of the objects handed to `step`, `fault`, `enter` and `exit`, whatever
the tracer code did before: it gives the datum it is named after, except that numbers are rounded to the
nearest double, `getInput` and `getOutput` give the one array of the object with what the code wrote into
it, and `getValue` gives what the global `bigint` of that moment makes of the value. -/
theorem C70_exact (opText : OpCode → String) (w : JsObjWorld) (cs : List JsCode) :
    let g := bigintAfter cs w.bigint
    let left := afterWrites w.arrays.length cs
    (∀ l : JsStepLog, let r := stepLogObject opText w l
      (∀ e ∈ stepData l, Sees g left r.2.methods (runJsCode r.1 cs) e.1 e.2) ∧
      (∀ e ∈ opData opText l.op, Gives r.2.op (runJsCode r.1 cs) e.1 e.2) ∧
      (∀ e ∈ contractData l.contract, Sees g left r.2.contract (runJsCode r.1 cs) e.1 e.2)) ∧
    (∀ f : JsFrameItem, let r := callFrameObject w f
      ∀ e ∈ enterData f, Sees g left r.2 (runJsCode r.1 cs) e.1 e.2) ∧
    (∀ (gas : Nat) (out : Bytes) (err : Option String), let r := frameResultObject w gas out err
      ∀ e ∈ exitData gas out err, Sees g left r.2 (runJsCode r.1 cs) e.1 e.2) := by
  intro g left
  have key : ∀ b, (runJsCode (w.newArray b).1 cs).bigint = g ∧
      (runJsCode (w.newArray b).1 cs).arrays[w.arrays.length]? = some (left b) :=
    fun b => runJsCode_exact cs (w.newArray b).1 w.arrays.length b (newArray_cell w b)
  refine ⟨fun l => ⟨?_, ?_, ?_⟩, fun f => ?_, fun gas out err => ?_⟩
  · intro e he
    simp only [stepData, List.mem_cons, List.not_mem_nil, or_false] at he
    rcases he with rfl | rfl | rfl | rfl | rfl | rfl
    · exact sees_number (by rfl)
    · exact sees_number (by rfl)
    · exact sees_number (by rfl)
    · exact sees_number (by rfl)
    · exact sees_number (by rfl)
    · exact sees_error (by rfl)
  · intro e he
    simp only [opData, List.mem_cons, List.not_mem_nil, or_false] at he
    rcases he with rfl | rfl | rfl
    · exact ⟨_, _, rfl, _, rfl, rfl⟩
    · exact gives_text (by rfl)
    · exact ⟨_, _, rfl, isPush_eq l.op⟩
  · intro e he
    obtain ⟨k1, k2⟩ := key l.contract.input
    simp only [contractData, List.mem_cons, List.not_mem_nil, or_false] at he
    rcases he with rfl | rfl | rfl | rfl
    · exact gives_address (by rfl)
    · exact gives_address (by rfl)
    · exact sees_value (by rfl) k1
    · exact gives_array (by rfl) k2
  · intro r e he
    obtain ⟨k1, k2⟩ := key f.contract.input
    simp only [enterData, List.mem_cons, List.not_mem_nil, or_false] at he
    rcases he with rfl | rfl | rfl | rfl | rfl | rfl
    · have : kindName f.kind = f.kind.toStr := by cases f.kind <;> rfl
      rw [this]
      exact gives_text (by rfl)
    · exact gives_address (by rfl)
    · exact gives_address (by rfl)
    · exact gives_array (by rfl) k2
    · exact sees_number (by rfl)
    · exact sees_value (by rfl) k1
  · intro r e he
    obtain ⟨k1, k2⟩ := key out
    simp only [exitData, List.mem_cons, List.not_mem_nil, or_false] at he
    rcases he with rfl | rfl | rfl
    · exact sees_number (by rfl)
    · exact gives_array (by rfl) k2
    · exact sees_error (by rfl)

/-- Code that does everything: it writes into the array of the object and into another one, and replaces
`bigint` twice. -/
example : afterWrites 0 [.write 0 1 9, .newArray [1], .write 1 0 7, .call [] "getInput"] [1, 2] = [1, 9] ∧
    bigintAfter [.setBigint .notCallable, .newArray [], .setBigint .library] .notCallable = .library :=
  ⟨by decide, rfl⟩

/-- C70 fails: after a tracer set the global `bigint` to something that cannot be called, `getValue`
gives `undefined`. -/
theorem C70_refuted_bigint : ∃ (w : JsObjWorld) (c : JsContract) (cs : List JsCode),
    w.bigint = .library ∧ (∀ cell i x, JsCode.write cell i x ∉ cs) ∧
    let r := contractObject w c
    Gives r.2 (runJsCode r.1 cs) "getValue" .undefined ∧
    ¬ Gives r.2 (runJsCode r.1 cs) "getValue" (.big c.value.toNat) := by
  refine ⟨⟨[], .library⟩, ⟨1, 2, 3, []⟩, [.setBigint .notCallable], rfl, by simp, ?_, ?_⟩
  · exact ⟨_, _, rfl, trivial⟩
  · rintro ⟨w', got, h, hr⟩
    cases h
    exact hr

end Verif.Props
