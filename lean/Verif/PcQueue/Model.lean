/-!
Model of the bounded producer-consumer queue, tools/pcqueue.c, with one producer and one consumer (MORE_THAN_ONE_ONE not
defined), as a transition system in which each semaphore operation and each access to the queue is a step.
Memory accesses are sequentially consistent.  A `sem_wait` that fails (EINTR) changes nothing and is not a step.
-/

namespace Verif.PcQueue

/-- Where the producer is in `producer_consumer_enqueue`, tools/pcqueue.c:137-179. -/
inductive PPc (α : Type) where
  /-- Outside, or before `sem_wait(&queue->full)`. -/
  | idle
  /-- Before `queue->elem[queue->head] = elem`. -/
  | store (x : α)
  /-- Before `queue->head++`. -/
  | inc
  /-- Before the test for the end of the buffer. -/
  | wrap
  /-- Before `sem_post(&queue->empty)`. -/
  | post

/-- Where the consumer is in `producer_consumer_dequeue`, tools/pcqueue.c:188-228. -/
inductive CPc (α : Type) where
  | idle
  /-- Before `ret = queue->elem[queue->tail]`. -/
  | fetch
  | inc (ret : α)
  | wrap (ret : α)
  | post (ret : α)

/-- `struct producer_consumer`, tools/pcqueue.h:12-40, with the positions of the two threads, and the history: `acc`
are the elements stored so far, `out` those fetched. -/
structure St (α : Type) where
  n : Nat
  head : Nat
  tail : Nat
  empty : Nat
  full : Nat
  elem : Nat → α
  p : PPc α
  c : CPc α
  acc : List α
  out : List α

/-- Steps of the two threads. -/
inductive Step {α : Type} : St α → St α → Prop
  /-- `sem_wait(&queue->full)` with a positive semaphore; an enqueue of `x` begins. -/
  | pWait (s : St α) (x : α) : s.p = .idle → 0 < s.full →
      Step s { s with full := s.full - 1, p := .store x }
  | pStore (s : St α) (x : α) : s.p = .store x →
      Step s { s with elem := fun i => if i = s.head then x else s.elem i, p := .inc, acc := s.acc ++ [x] }
  | pInc (s : St α) : s.p = .inc → Step s { s with head := s.head + 1, p := .wrap }
  | pWrap (s : St α) : s.p = .wrap →
      Step s { s with head := if s.n ≤ s.head then 0 else s.head, p := .post }
  | pPost (s : St α) : s.p = .post → Step s { s with empty := s.empty + 1, p := .idle }
  | cWait (s : St α) : s.c = .idle → 0 < s.empty → Step s { s with empty := s.empty - 1, c := .fetch }
  | cFetch (s : St α) : s.c = .fetch →
      Step s { s with c := .inc (s.elem s.tail), out := s.out ++ [s.elem s.tail] }
  | cInc (s : St α) (r : α) : s.c = .inc r → Step s { s with tail := s.tail + 1, c := .wrap r }
  | cWrap (s : St α) (r : α) : s.c = .wrap r →
      Step s { s with tail := if s.n ≤ s.tail then 0 else s.tail, c := .post r }
  | cPost (s : St α) (r : α) : s.c = .post r → Step s { s with full := s.full + 1, c := .idle }

/-- `producer_consumer_init`, tools/pcqueue.c:15-41. -/
def init {α : Type} (n : Nat) (elem : Nat → α) : St α := ⟨n, 0, 0, 0, n, elem, .idle, .idle, [], []⟩

inductive Reach {α : Type} (s : St α) : St α → Prop
  | refl : Reach s s
  | tail {u v : St α} : Reach s u → Step u v → Reach s v

end Verif.PcQueue
