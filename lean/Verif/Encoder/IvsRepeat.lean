import Verif.Types.Ops

/-! Repeat events of IVS files: IvsEncoder.h, and `encode` of IvsEncoder.cpp from the events of a timeline to the
list of its effects.  `int` arithmetic is taken to stay in range. -/

namespace Haptics.Ivs
open Haptics

/-- A `repeat-event`, as `getTime`, `getDuration` and `getCount` (IvsEncoder.cpp:281-306) read it. -/
structure Repeat where
  time : Int := -1
  duration : Int := -1
  count : Int := 0
deriving DecidableEq, Repr

/-- IvsEncoder.h:100-103 `RepeatNode`; `value` is null at the root only. -/
inductive RepeatNode where
  | mk (value : Option Repeat) (myEffects : List Effect) (children : List RepeatNode)

/-- IvsEncoder.h:120-129: after the last effect that starts earlier, and at the end if there is none. -/
def place (e : Effect) (l : List Effect) : List Effect :=
  let later := fun x : Effect => decide (e.position ≤ x.position)
  match l.reverse.dropWhile later with
  | [] => l ++ [e]
  | x :: r => (x :: r).reverse ++ e :: (l.reverse.takeWhile later).reverse

mutual
/-- IvsEncoder.h:105-131 `pushEffect`; `none` if it returns false. -/
def RepeatNode.pushEffect (e : Effect) : RepeatNode → Option RepeatNode
  | .mk value myEffects children =>
    if value.any (fun r => decide (r.time > e.position ∨ e.position ≥ r.time + r.duration)) then none
    else match pushToChildren e children with
      | some children => some (.mk value myEffects children)
      | none => some (.mk value (place e myEffects) children)
/-- IvsEncoder.h:115-119: the first child that takes the effect. -/
def pushToChildren (e : Effect) : List RepeatNode → Option (List RepeatNode)
  | [] => none
  | c :: cs => match c.pushEffect e with
    | some c => some (c :: cs)
    | none => (pushToChildren e cs).map (c :: ·)
end

/-- `setPosition(getPosition() + delay)`. -/
def later (delay : Int) (e : Effect) : Effect := { e with position := e.position + delay }

/-- The time at which a child begins: IvsEncoder.h:145-146. -/
def RepeatNode.start : RepeatNode → Int
  | .mk value _ _ => (value.map (·.time)).getD 0

mutual
/-- IvsEncoder.h:133-181 `linearize`: the effects put into `effectLibrary`, the new `delay` and the result. -/
def RepeatNode.linearize (delay : Int) : RepeatNode → List Effect × Int × Int
  | .mk value myEffects children =>
    let count := (value.map (·.count)).getD 0
    let (l, delay, duration) := merge myEffects delay ((value.map (·.duration)).getD 0) children
    ((List.range (count + 1).toNat).flatMap (fun i : Nat => l.map (later (i * duration))), delay, count * duration)
/-- IvsEncoder.h:140-171: effects of the node and of its children; the effects that start before a child come
before it, those that are left when the children are exhausted at the end. -/
def merge (myEffects : List Effect) (delay duration : Int) : List RepeatNode → List Effect × Int × Int
  | [] => (myEffects.map (later delay), delay, duration)
  | c :: cs =>
    let before := fun e : Effect => decide (e.position < c.start)
    let (l, delay', more) := c.linearize delay
    let (l', delay'', duration) := merge (myEffects.dropWhile before) (delay' + more) (duration + more) cs
    ((myEffects.takeWhile before).map (later delay) ++ l ++ l', delay'', duration)
end

/-- IvsEncoder.cpp:127-136 `isRepeatNested`. -/
def isRepeatNested (parent child : Repeat) : Bool :=
  decide (parent.time ≤ child.time ∧ child.time < parent.time + parent.duration)

mutual
/-- IvsEncoder.cpp:81-95: a repeat event enters the tree.  `researchNode` is a reference to the root, so that
assigning the last child to it replaces the whole tree by the child. -/
def RepeatNode.addRepeat (r : Repeat) : RepeatNode → RepeatNode
  | .mk value myEffects children => match addNested r children with
    | some node => node
    | none => .mk value myEffects (children ++ [.mk (some r) [] []])
/-- IvsEncoder.cpp:85-94: the last child, if the event is nested in it. -/
def addNested (r : Repeat) : List RepeatNode → Option RepeatNode
  | [] => none
  | [.mk value myEffects children] =>
    if value.any (isRepeatNested · r) then some (RepeatNode.addRepeat r (.mk value myEffects children)) else none
  | _ :: c :: cs => addNested r (c :: cs)
end

/-- IvsEncoder.cpp:79-96: the tree, from the repeat events in the order of `std::sort`. -/
def repeatTree (repeats : List Repeat) : RepeatNode := repeats.foldl (fun t r => t.addRepeat r) (.mk none [] [])

/-- IvsEncoder.cpp:109: the result of `pushEffect` is ignored. -/
def RepeatNode.push (t : RepeatNode) (e : Effect) : RepeatNode := (t.pushEffect e).getD t

/-- IvsEncoder.cpp:79-115: from the sorted repeat events and the launched effects to `repeatedEffectsSet`. -/
def expandRepeats (repeats : List Repeat) (effects : List Effect) : List Effect :=
  ((effects.foldl RepeatNode.push (repeatTree repeats)).linearize 0).1

end Haptics.Ivs
