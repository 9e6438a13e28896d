import Verif.Model.HPG
import Verif.Spec.Engine

/-!
# Specification vocabulary for the hazard proximity grid

Operation sequences on an engine with a grid, what the square root has to satisfy, and
which hazards matter for an item.
-/

namespace Jagua

variable {K : Type*} [Arith K] [LinearOrder K] {n : ℕ}

/-- The square root is not below the true one (rounding upwards is allowed). -/
def HEnv.SqrtUpper (env : HEnv K) : Prop := ∀ x, 0 ≤ x → 0 ≤ env.sqrt x ∧ x ≤ env.sqrt x ^ 2

/-- The square root is exact. -/
def HEnv.SqrtExact (env : HEnv K) : Prop := ∀ x, 0 ≤ x → 0 ≤ env.sqrt x ∧ env.sqrt x ^ 2 = x

/-- Everything that can be done to an engine with a grid. `snapshot` is
`create_snapshot`, as far as the engine is concerned. -/
inductive HOp (K : Type*)
  | register (h : Hazard K)
  | deregister (e : HazardEntity K) (commitInstant : Bool)
  | flush
  | commit
  | snapshot
  | restore (s : HSnap K)

/-- Running an operation; `none` is a panic. -/
def HOp.run (env : HEnv K) (o : SearchOracle K) : HOp K → HCDE K n → Option (HCDE K n)
  | .register h, c => c.register env o h
  | .deregister e ci, c => c.deregister env o e ci
  | .flush, c => c.flush env
  | .commit, c => c.commit env
  | .snapshot, c => (c.createSnapshot env).map Prod.fst
  | .restore s, c => c.restore env o s

/-- Running a sequence of operations. -/
def HOp.runAll (env : HEnv K) (o : SearchOracle K) (ops : List (HOp K)) (c : HCDE K n) : Option (HCDE K n) :=
  ops.foldlM (fun (c : HCDE K n) op => op.run env o c) c

/-- Whether there are lazy deregistrations that have not been processed, given
whether there were any before: they are processed by a flush, a commit, a snapshot or a
restore. -/
def HOp.pending : Bool → List (HOp K) → Bool
  | b, [] => b
  | b, .register _ :: ops => pending b ops
  | _, .deregister _ false :: ops => pending true ops
  | b, .deregister _ true :: ops => pending b ops
  | _, .flush :: ops => pending false ops
  | _, .commit :: ops => pending false ops
  | _, .snapshot :: ops => pending false ops
  | _, .restore _ :: ops => pending false ops

/-- Engines with a grid (`inl`) that come out of `CDEngine::new` by operations that meet
the obligations of the caller, and the snapshots (`inr`) taken of them. Snapshots are
restored into engines that were created for the same box and static hazards. Entities
determine hazards (`φ`). -/
inductive HReach (env : HEnv K) (o : SearchOracle K) (bbox : AARect K) (statics : List (Hazard K)) (nCells : ℕ)
    (φ : HazardEntity K → Hazard K) : HCDE K n ⊕ HSnap K → Prop
  | new {c : HCDE K n} : HCDE.new env o n bbox statics nCells = some c → HReach env o bbox statics nCells φ (.inl c)
  | register {c c' : HCDE K n} {h : Hazard K} : HReach env o bbox statics nCells φ (.inl c) → (CDEOp.register h).Pre c.cde →
      h.erase = φ h.entity → c.register env o h = some c' → HReach env o bbox statics nCells φ (.inl c')
  | deregister {c c' : HCDE K n} {e : HazardEntity K} {ci : Bool} : HReach env o bbox statics nCells φ (.inl c) →
      (CDEOp.deregister e ci).Pre c.cde → c.deregister env o e ci = some c' → HReach env o bbox statics nCells φ (.inl c')
  | flush {c c' : HCDE K n} : HReach env o bbox statics nCells φ (.inl c) → c.flush env = some c' →
      HReach env o bbox statics nCells φ (.inl c')
  | commit {c c' : HCDE K n} : HReach env o bbox statics nCells φ (.inl c) → c.commit env = some c' →
      HReach env o bbox statics nCells φ (.inl c')
  | snapshot {c c' : HCDE K n} {s : HSnap K} : HReach env o bbox statics nCells φ (.inl c) →
      c.createSnapshot env = some (c', s) → HReach env o bbox statics nCells φ (.inr s)
  | restore {c c' : HCDE K n} {s : HSnap K} : HReach env o bbox statics nCells φ (.inl c) →
      HReach env o bbox statics nCells φ (.inr s) → c.restore env o s = some c' → HReach env o bbox statics nCells φ (.inl c')

/-- The hazards that matter for an item of the given base quality: everything but quality
zones that are good enough. Without a base quality, all of them. -/
def HazardEntity.Matters (quality : Option ℕ) : HazardEntity K → Prop
  | .inferiorQualityZone q _ => ∀ b, quality = some b → q < b
  | _ => True

/-- Squared distance. -/
def sqDist (p q : Point K) : K := (p.x - q.x) ^ 2 + (p.y - q.y) ^ 2

end Jagua
