import Mathlib.Data.List.Basic
import Mathlib.Data.List.Perm.Basic

/-! # Model of common/s3api/client.go over an S3 bucket

External, by the documentation of Amazon S3: objects are put, deleted and read atomically (strong consistency), a request that reports
an error may or may not have been carried out, and `ListObjects` returns the first 1000 keys in order with `IsTruncated` set when there
are more. Keys are lists of bytes. Credentials and the choice of region (client.go:31-64) are not modelled. -/

namespace Verif.S3

abbrev Key := List ℕ
abbrev Bytes := List ℕ

/-- The objects of the bucket. -/
abbrev Bucket := List (Key × Bytes)

/-- Byte order of keys. -/
def keyLe (a b : Key) : Bool := decide (a ≤ b)

/-- `PutObject` (external). -/
def put (st : Bucket) (k : Key) (b : Bytes) : Bucket := (k, b) :: st.filter (fun o => o.1 ≠ k)

/-- `DeleteObject` (external): no error when there is no such object. -/
def remove (st : Bucket) (k : Key) : Bucket := st.filter (fun o => o.1 ≠ k)

/-- What can happen to the bucket: requests of any client. `applied` tells whether the service carried the request out, `err` whether the
client got an error; an error can come after the request was carried out, not the other way round. -/
inductive Op where
  | upload (k : Key) (b : Bytes) (applied err : Bool)
  | delete (k : Key) (applied err : Bool)

/-- client.go:77-85 `Upload`, 107-114 `Delete`: what the call does to the bucket; the returned error is the error of the request. -/
def step (st : Bucket) : Op → Bucket
  | .upload k b applied _ => if applied then put st k b else st
  | .delete k applied _ => if applied then remove st k else st

def run (ops : List Op) : Bucket := ops.foldl step []

/-- client.go:98-105 `Download`: `none` is an error. -/
def download (st : Bucket) (k : Key) : Option Bytes := (st.find? (fun o => o.1 = k)).map Prod.snd

/-- client.go:87-96 `HeadObject`: whether it returns nil; the request is made twice. -/
def headObject (st : Bucket) (k : Key) : Bool := let _ := download st k; (download st k).isSome

/-- client.go:66-75 `ListObjects`: one request; `IsTruncated` is not looked at. -/
def listObjects (st : Bucket) (pre : Key) : List Key :=
  (((st.map Prod.fst).filter (fun k => pre.isPrefixOf k)).mergeSort keyLe).take 1000

end Verif.S3
