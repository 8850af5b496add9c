import Verif.Model.XStream

/-! Model of the constructor of `xStream`, `pysad/models/xstream.py` l.17-34, with its random
choices. -/

namespace Pysad

/-- The generator functions used: `randint g k` is `np.random.randint(0, k)` and `rand g k` is
`np.random.rand(k)`, with the state of the generator afterwards. -/
structure XsRng (G K : Type*) where
  randint : G → ℕ → ℕ × G
  rand : G → (k : ℕ) → (Fin k → K) × G

namespace XStream

variable {G K : Type*} [Field K] [LinearOrder K] (rng : XsRng G K)

/-- `[np.random.randint(0, k) for d in range(depth)]`, l.96. For `k = 0` numpy raises
`ValueError`; for other `k` it returns a number below `k`. -/
def drawFeatures (k : ℕ) : ℕ → G → Except PyErr (List (Fin k) × G)
  | 0, g => .ok ([], g)
  | depth + 1, g =>
    let drawn := rng.randint g k
    if h : drawn.1 < k then
      (drawFeatures k depth drawn.2).map fun p => (⟨drawn.1, h⟩ :: p.1, p.2)
    else .error .valueError

/-- The random choices of `_Chain.__init__`, l.96 and l.101, in this order. -/
def drawChain (k depth : ℕ) (g : G) : Except PyErr (XsDraw K k × G) :=
  (drawFeatures rng k depth g).map fun p =>
    let drawn := rng.rand p.2 k
    (⟨p.1, drawn.1⟩, drawn.2)

/-- The loop of `_HSChains.__init__`, l.188-191. -/
def drawChains (k depth : ℕ) : ℕ → G → Except PyErr (List (XsDraw K k) × G)
  | 0, g => .ok ([], g)
  | n + 1, g =>
    (drawChain rng k depth g).bind fun p =>
    (drawChains k depth n p.2).map fun q => (p.1 :: q.1, q.2)

/-- `xStream(num_components, n_chains, depth, window_size)`, l.17-34; the projector is
`StreamhashProjector(num_components=num_components)`, with its default density. -/
def construct (sqrt : K → K) (numComponents nChains depth windowSize : ℕ) (g : G) :
    Except PyErr (XStreamState K numComponents × G) :=
  (Streamhash.new sqrt numComponents (1 / 3)).bind fun p =>
  (drawChains rng numComponents depth nChains g).map fun q => (new p windowSize q.1, q.2)

/-- `xStream()`: the default arguments, l.19-22. -/
def constructDefault (sqrt : K → K) (g : G) : Except PyErr (XStreamState K 100 × G) :=
  construct rng sqrt 100 100 25 25 g

end XStream

end Pysad
