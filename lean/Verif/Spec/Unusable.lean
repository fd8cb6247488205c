import Verif.Spec.MixedRun

/-!
Specification for C114.
-/

namespace Cres.Spec

variable {K V : Type*}

/-- An input file that cannot be used, with the error it causes: it does not exist, or the beginning is the one of a format
that this build of the program does not support, or it is a ROOT file that the library cannot read. -/
inductive Unusable (cfg : IOConfig K V) (lib : Mixed.RootLib K) : Option Bytes → CreateError → Prop
  | missing : Unusable cfg lib none .openInput
  | root {content : Bytes} : cfg.feat.ntuple = false → ascii "root" <+: cfg.firstBuffer content →
      Unusable cfg lib (some content) .rootUnsupported
  | xml {content : Bytes} : cfg.feat.stripperXml = false → ascii "<?xml" <+: trimAsciiStart (cfg.firstBuffer content) →
      ¬ ascii "root" <+: cfg.firstBuffer content → Unusable cfg lib (some content) .xmlUnsupported
  | broken {content : Bytes} {e : CreateError} : cfg.feat.ntuple = true → ascii "root" <+: cfg.firstBuffer content →
      lib.read content = .err e → Unusable cfg lib (some content) e

end Cres.Spec
