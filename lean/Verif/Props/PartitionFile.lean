import Verif.Model.PartitionFile
import Verif.Proofs.FileReader

/-!
Property C126: `cres-classify-events` can use the partition files written by `cres-partition`.
-/

namespace Cres

open PartitionFile Options

variable {F : Type}

theorem mapM_ser {S T : Type} (ser : T → S) (de : S → Option T) : ∀ l : List T, (∀ x ∈ l, de (ser x) = some x) →
    (l.map ser).mapM de = some l := by
  intro l
  induction l with
  | nil => intro _; rfl
  | cons a l ih =>
    intro h
    rw [List.map_cons, List.mapM_cons, h a (by simp), ih fun x hx => h x (by simp [hx])]
    rfl

theorem deSeq_ser {T : Type} (ser : T → Value F) (de : Value F → Option T) (l : List T) (h : ∀ x ∈ l, de (ser x) = some x) :
    deSeq de (.seq (l.map ser)) = some l := mapM_ser ser de l h

section

variable [IntCast F]

theorem de_ser_algorithm (a : JetAlgorithm) : deAlgorithm (serAlgorithm a : Value F) = some a := by
  cases a <;> simp [serAlgorithm, deAlgorithm]

theorem de_ser_jetDef (d : JetDefinition F) : deJetDef (serJetDef d) = some d := by
  simp [serJetDef, deJetDef, fields, field, de_ser_algorithm, deFloat]

theorem de_ser_photonDef (d : PhotonDefinition F) : dePhotonDef (serPhotonDef d) = some d := by
  simp [serPhotonDef, dePhotonDef, fields, field, deFloat]

theorem de_ser_clustering (c : StoredClustering F) : deClustering (serClustering c) = some c := by
  obtain ⟨j, l, p, i⟩ := c
  have h1 : deOption deJetDef (serOption serJetDef l) = some l := by
    cases l with
    | none => rfl
    | some d => simp only [serOption]; rw [show deOption deJetDef (serJetDef d) = (deJetDef (serJetDef d)).map some from rfl, de_ser_jetDef]; rfl
  have h2 : deOption dePhotonDef (serOption serPhotonDef p) = some p := by
    cases p with
    | none => rfl
    | some d =>
      simp only [serOption]; rw [show deOption dePhotonDef (serPhotonDef d) = (dePhotonDef (serPhotonDef d)).map some from rfl, de_ser_photonDef]; rfl
  simp [serClustering, deClustering, fields, field, optionField, de_ser_jetDef, h1, h2, deBool]

theorem de_ser_vector (v : StoredVector F) : deVector (serVector v) = some v := by
  simp [serVector, deVector, fields, field, deFloat, deSeq]

theorem de_ser_weights (multi : Bool) (w : List F) (h : multi = true ∨ w.length = 1) : deWeights multi (serWeights multi w) = some w := by
  unfold deWeights serWeights
  cases multi with
  | true => simpa using deSeq_ser Value.float deFloat w fun x _ => rfl
  | false =>
    match w, h with
    | [x], _ => simp [deFloat]
    | [], h => simp at h
    | _ :: _ :: _, h => simp at h

theorem de_ser_event (multi : Bool) (e : Event F (StoredVector F)) (h : multi = true ∨ e.weights.length = 1) :
    deEvent multi (serEvent multi e) = some e := by
  have h1 : deSeq deGroup (.seq (e.outgoingByPid.map fun g => .seq [.int g.1, .seq (g.2.map serVector)])) = some e.outgoingByPid := by
    refine deSeq_ser (F := F) (fun g : ℤ × List (StoredVector F) => .seq [.int g.1, .seq (g.2.map serVector)]) deGroup _ fun g _ => ?_
    simp [deGroup, deInt, deSeq_ser serVector deVector g.2 fun v _ => de_ser_vector v]
  simp [serEvent, deEvent, fields, field, deNat, deInt, de_ser_weights multi _ h, h1]

theorem de_ser_bisection (multi : Bool) (b : VPBisection (Event F (StoredVector F)) F) (h : multi = true ∨ b.pt.weights.length = 1) :
    deBisection multi (serBisection multi b) = some b := by
  simp [serBisection, deBisection, fields, field, de_ser_event multi _ h, deFloat]

theorem de_ser_info (multi : Bool) (x : PartInfo F) (h : multi = true ∨ ∀ b ∈ x.vp, b.pt.weights.length = 1) :
    deInfo multi (serInfo multi x) = some x := by
  have h1 : deSeq (deBisection multi) (.seq (x.vp.map (serBisection multi))) = some x.vp :=
    deSeq_ser _ _ _ fun b hb => de_ser_bisection multi b (h.imp_right fun h => h b hb)
  simp [serInfo, deInfo, fields, field, de_ser_clustering, h1, deFloat]

/-- **C126** without compression: if the YAML library reads what it wrote, then `cres-classify-events` uses the clustering, the bisections and
the distance from which `cres-partition` made the file. Missing: compressed partition files, for which it is false (`C126_violated`). -/
theorem C126_plain_partial (codec : Codec) (yaml : Yaml F) (multi : Bool) (x : PartInfo F)
    (hyaml : yaml.read (yaml.write (serInfo multi x)).flatten = some (serInfo multi x))
    (hw : multi = true ∨ ∀ b ∈ x.vp, b.pt.weights.length = 1) : readFile yaml multi (writeFile codec none yaml multi x) = some x := by
  have h : writeFile codec none yaml multi x = (yaml.write (serInfo multi x)).flatten := rfl
  rw [readFile, h, hyaml]
  exact de_ser_info multi x hw

/-- **C126**: definitions of leptons and photons that are not used need not be in the file. -/
theorem C126_missing_partial (c : StoredClustering F) {l : List (String × Value F)} (h : serClustering c = .map l) :
    deClustering (.map (l.filter fun kv => match kv.2 with | .null => false | _ => true)) = some c := by
  obtain ⟨j, le, p, i⟩ := c
  simp only [serClustering, Value.map.injEq] at h
  subst h
  have h1 : ∀ d : JetDefinition F, deOption deJetDef (serJetDef d) = some (some d) := fun d => by
    rw [show deOption deJetDef (serJetDef d) = (deJetDef (serJetDef d)).map some from rfl, de_ser_jetDef]; rfl
  have h2 : ∀ d : PhotonDefinition F, deOption dePhotonDef (serPhotonDef d) = some (some d) := fun d => by
    rw [show deOption dePhotonDef (serPhotonDef d) = (dePhotonDef (serPhotonDef d)).map some from rfl, de_ser_photonDef]; rfl
  have hj : ∀ d : JetDefinition F, (match serJetDef d with | .null => false | _ => true) = true := fun _ => rfl
  have hp : ∀ d : PhotonDefinition F, (match serPhotonDef d with | .null => false | _ => true) = true := fun _ => rfl
  cases le <;> cases p <;> simp [deClustering, fields, field, optionField, serOption, de_ser_jetDef, h1, h2, hj, hp, deBool]

end

/-- The data formats gzip (RFC 1952), lz4 (frame format) and zstd (RFC 8878) begin with these bytes. -/
structure HasSignatures (codec : Codec) : Prop where
  gzip : ∀ level ws, [0x1F, 0x8B] <+: (codec.encoder (.gzip level)).complete ws
  lz4 : ∀ level ws, [0x04, 0x22, 0x4D, 0x18] <+: (codec.encoder (.lz4 level)).complete ws
  zstd : ∀ level ws, [0x28, 0xB5, 0x2F, 0xFD] <+: (codec.encoder (.zstd level)).complete ws

theorem validUtf8_false_of_prefix {s t : Bytes} (h : s <+: t) (hs : s.foldl Utf8State.step .start = .bad) : validUtf8 t = false := by
  obtain ⟨r, rfl⟩ := h
  rw [Bool.eq_false_iff]
  intro hv
  rw [validUtf8_iff, List.foldl_append, hs, utf8_bad] at hv
  exact absurd hv (by decide)

/-- **C126** (false with compression): if the partition file is compressed with gzip, lz4 or zstd, then `cres-classify-events` cannot read
it, whatever it contains. -/
theorem C126_violated [IntCast F] {codec : Codec} (hc : HasSignatures codec) (yaml : Yaml F) (multi multi' : Bool) (level : Nat)
    (x : PartInfo F) {c : Compression} (h : c = .gzip level ∨ c = .lz4 level ∨ c = .zstd level) :
    readFile yaml multi' (writeFile codec (some c) yaml multi x) = none := by
  have hr : yamlText (writeFile codec (some c) yaml multi x) = false := by
    unfold yamlText writeFile Codec.compressWriter
    rcases h with rfl | rfl | rfl
    · rw [validUtf8_false_of_prefix (hc.gzip level _) (by decide), Bool.false_and]
    · obtain ⟨r, hr⟩ := hc.lz4 level (yaml.write (serInfo multi x))
      rw [← hr]
      simp
    · rw [validUtf8_false_of_prefix (hc.zstd level _) (by decide), Bool.false_and]
  rw [readFile, yaml.rejects _ hr]
  rfl

/-- **C126** (false for different builds): if only one of the programs was built with support for several weights, then
`cres-classify-events` cannot read a file with more than one region. -/
theorem C126_builds_violated [IntCast F] (codec : Codec) (yaml : Yaml F) (multi : Bool) (x : PartInfo F)
    (hyaml : yaml.read (yaml.write (serInfo multi x)).flatten = some (serInfo multi x))
    (hx : x.vp ≠ []) : readFile yaml (!multi) (writeFile codec none yaml multi x) = none := by
  have h : writeFile codec none yaml multi x = (yaml.write (serInfo multi x)).flatten := rfl
  rw [readFile, h, hyaml]
  obtain ⟨b, l, hv⟩ := List.exists_cons_of_ne_nil hx
  have hw : deWeights (!multi) (serWeights multi b.pt.weights) = none := by
    cases multi with
    | true => simp [deWeights, serWeights, deFloat]
    | false =>
      unfold deWeights serWeights
      cases b.pt.weights <;> simp [deSeq]
  have hb : deBisection (!multi) (serBisection multi b) = none := by
    simp [serBisection, deBisection, fields, field, serEvent, deEvent, hw, deNat, deInt]
  have hs : deSeq (deBisection (!multi)) (.seq (x.vp.map (serBisection multi))) = none := by
    rw [hv]
    simp [deSeq, List.mapM_cons, hb]
  simp [serInfo, deInfo, fields, field, de_ser_clustering, hs]

/-! The assumptions can be met. -/

/-- The signatures. -/
def exSignature : Compression → Bytes
  | .bzip2 => [0x42, 0x5A, 0x68]
  | .gzip _ => [0x1F, 0x8B]
  | .lz4 _ => [0x04, 0x22, 0x4D, 0x18]
  | .zstd _ => [0x28, 0xB5, 0x2F, 0xFD]

/-- A codec that only adds signatures. -/
def exSignatureCodec : Codec where
  encoder c :=
    { out := fun ws => exSignature c ++ ws.flatten
      complete := fun ws => exSignature c ++ ws.flatten
      grows := fun ws w => by simp
      ends := fun ws => List.prefix_rfl }
  decompress s := match [Compression.bzip2, .gzip 0, .lz4 0, .zstd 0].find? fun c => (exSignature c).isPrefixOf s with
    | some c => s.drop (exSignature c).length
    | none => s
  known s := ([Compression.bzip2, .gzip 0, .lz4 0, .zstd 0].find? fun c => (exSignature c).isPrefixOf s).isSome
  decompress_plain s h := by
    rw [Option.isSome_eq_false_iff, Option.isNone_iff_eq_none] at h
    rw [h]
  decompress_complete c ws := by
    cases c <;> simp [List.find?, exSignature, List.isPrefixOf]

theorem exSignatureCodec_signatures : HasSignatures exSignatureCodec :=
  ⟨fun _ _ => List.prefix_append _ _, fun _ _ => List.prefix_append _ _, fun _ _ => List.prefix_append _ _⟩

/-- A partition into two regions. -/
def exPartInfo : PartInfo ℤ where
  clustering := ⟨⟨.antiKt, 4, 30⟩, none, some ⟨9, 2, 10⟩, true⟩
  vp := [⟨⟨3, [-2], [(25, [⟨1, 5, 1, 0, 4⟩])]⟩, 7⟩]
  ptWeight := 1

open Classical in
/-- A YAML library for this partition. -/
noncomputable def exYaml : Yaml ℤ where
  write _ := [ascii "- partition", [10]]
  read s := if s = ascii "- partition" ++ [10] then some (serInfo true exPartInfo) else none
  rejects s h := by
    rw [if_neg]
    rintro rfl
    revert h
    decide

example : readFile exYaml true (writeFile exSignatureCodec none exYaml true exPartInfo) = some exPartInfo ∧
    readFile exYaml false (writeFile exSignatureCodec none exYaml true exPartInfo) = none ∧
    readFile exYaml true (writeFile exSignatureCodec (some (.zstd 5)) exYaml true exPartInfo) = none := by
  have h : exYaml.read (exYaml.write (serInfo true exPartInfo)).flatten = some (serInfo true exPartInfo) := by
    simp [exYaml]
  exact ⟨C126_plain_partial _ _ _ _ h (.inl rfl), C126_builds_violated _ _ true _ h (by simp [exPartInfo]),
    C126_violated exSignatureCodec_signatures _ _ _ 5 _ (.inr (.inr rfl))⟩

end Cres
