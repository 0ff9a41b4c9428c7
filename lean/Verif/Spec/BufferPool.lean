import Verif.Model.BufferPool

namespace NDSL

/-- the buffers a user may use: those of a transformer that is not finalized, of a block that has not been
left, of a request that has not been waited for -/
def BufUser.owns : BufUser → List Buf
  | .transformer (some (a, b)) => [a, b]
  | .transformer none => []
  | .block b true => [b]
  | .block _ false => []
  | .request bs false => bs
  | .request _ true => []

/-- no request is waited for twice in the history -/
def WaitsOnce (ops : List BufOp) : Prop :=
  (ops.filterMap fun o => match o with
    | .waitRequest u => some u
    | _ => none).Nodup

/-- single ownership: no buffer is owned by two users, owned twice by one user, owned and free, or free
twice; and free buffers are filed under their own key -/
structure SingleOwner (p : Pool) : Prop where
  users : ∀ (i j : Nat) (u v : BufUser), p.users[i]? = some u → p.users[j]? = some v → i ≠ j →
    ∀ b ∈ u.owns, b ∉ v.owns
  once : ∀ u ∈ p.users, u.owns.Nodup
  free : ∀ u ∈ p.users, ∀ b ∈ u.owns, ∀ k, b ∉ p.free k
  freeOnce : ∀ k, (p.free k).Nodup
  key : ∀ k, ∀ b ∈ p.free k, b.key = k

end NDSL
