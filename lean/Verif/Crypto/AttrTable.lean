import Verif.Crypto.EnumTable
import Verif.Utils.TypeList

/-!
# Attribute wrappers — include/FlameIDE/Crypto/Pkcs11/Attribute.hpp

The header includes `Common/Traits/Fuctional.hpp`, which does not exist (the file is `Functional.hpp`); the model is about its contents
as written.
-/

namespace Flame.PkAttr
open TypeList (Ct)
open PkEnum

/-- The value types that occur in the traits: `void`, an enumeration of Enums.hpp, `value_types::Ulong`, `structs::Date`,
`Array<value_types::Char, n>`. -/
inductive VT where
  | void
  | enum (name : String)
  | ulong
  | date
  | chars (n : Nat)
  deriving DecidableEq, Repr

/-- A specialisation `Trait<attribute, Meta>`; `none`: `Meta = void`. -/
structure Trait where
  name : String
  tag : Option String
  type : VT
  deriving DecidableEq, Repr

/-- Attribute.hpp 33-1292: the specialisations in their order. -/
def traits : List Trait := [
  ⟨"CLASS", none, .enum "ObjectClass"⟩,
  ⟨"HW_FEATURE_TYPE", none, .enum "HardwareFeature"⟩,
  ⟨"VALUE", some "Clock", .chars 16⟩,
  ⟨"RESET_ON_INIT", none, .enum "Bool"⟩,
  ⟨"HAS_RESET", none, .enum "Bool"⟩,
  ⟨"VALUE", some "MonotonicCounter", .void⟩,
  ⟨"PIXEL_X", none, .ulong⟩,
  ⟨"PIXEL_Y", none, .ulong⟩,
  ⟨"RESOLUTION", none, .ulong⟩,
  ⟨"CHAR_ROWS", none, .ulong⟩,
  ⟨"CHAR_COLUMNS", none, .ulong⟩,
  ⟨"COLOR", none, .enum "Bool"⟩,
  ⟨"BITS_PER_PIXEL", none, .ulong⟩,
  ⟨"CHAR_SETS", none, .void⟩,
  ⟨"ENCODING_METHODS", none, .void⟩,
  ⟨"MIME_TYPES", none, .void⟩,
  ⟨"TOKEN", none, .enum "Bool"⟩,
  ⟨"PRIVATE", none, .enum "Bool"⟩,
  ⟨"MODIFIABLE", none, .enum "Bool"⟩,
  ⟨"LABEL", none, .void⟩,
  ⟨"COPYABLE", none, .enum "Bool"⟩,
  ⟨"DESTROYABLE", none, .void⟩,
  ⟨"UNIQUE_ID", none, .void⟩,
  ⟨"APPLICATION", none, .void⟩,
  ⟨"OBJECT_ID", none, .void⟩,
  ⟨"VALUE", none, .void⟩,
  ⟨"CERTIFICATE_TYPE", none, .enum "Certificate"⟩,
  ⟨"TRUSTED", none, .enum "Bool"⟩,
  ⟨"CERTIFICATE_CATEGORY", none, .enum "CertificateCategory"⟩,
  ⟨"CHECK_VALUE", none, .void⟩,
  ⟨"START_DATE", none, .date⟩,
  ⟨"END_DATE", none, .date⟩,
  ⟨"PUBLIC_KEY_INFO", none, .void⟩,
  ⟨"SUBJECT", none, .void⟩,
  ⟨"ID", none, .void⟩,
  ⟨"ISSUER", none, .void⟩,
  ⟨"SERIAL_NUMBER", none, .void⟩,
  ⟨"VALUE", some "X509PublicKeyCertificateObjects", .void⟩,
  ⟨"URL", none, .void⟩,
  ⟨"HASH_OF_SUBJECT_PUBLIC_KEY", none, .void⟩,
  ⟨"HASH_OF_ISSUER_PUBLIC_KEY", none, .void⟩,
  ⟨"JAVA_MIDP_SECURITY_DOMAIN", none, .enum "SecurityDomain"⟩,
  ⟨"NAME_HASH_ALGORITHM", none, .enum "Mechanism"⟩,
  ⟨"AC_ISSUER", none, .void⟩,
  ⟨"OWNER", none, .void⟩,
  ⟨"ATTR_TYPES", none, .void⟩,
  ⟨"KEY_TYPE", none, .void⟩,
  ⟨"SENSITIVE", none, .void⟩,
  ⟨"ENCRYPT", none, .void⟩,
  ⟨"DECRYPT", none, .void⟩,
  ⟨"WRAP", none, .void⟩,
  ⟨"UNWRAP", none, .void⟩,
  ⟨"SIGN", none, .void⟩,
  ⟨"SIGN_RECOVER", none, .void⟩,
  ⟨"VERIFY", none, .void⟩,
  ⟨"VERIFY_RECOVER", none, .void⟩,
  ⟨"DERIVE", none, .void⟩,
  ⟨"MODULUS", none, .void⟩,
  ⟨"MODULUS_BITS", none, .void⟩,
  ⟨"PUBLIC_EXPONENT", none, .void⟩,
  ⟨"PRIVATE_EXPONENT", none, .void⟩,
  ⟨"PRIME_1", none, .void⟩,
  ⟨"PRIME_2", none, .void⟩,
  ⟨"EXPONENT_1", none, .void⟩,
  ⟨"EXPONENT_2", none, .void⟩,
  ⟨"COEFFICIENT", none, .void⟩,
  ⟨"PRIME", none, .void⟩,
  ⟨"SUBPRIME", none, .void⟩,
  ⟨"BASE", none, .void⟩,
  ⟨"PRIME_BITS", none, .void⟩,
  ⟨"SUBPRIME_BITS", none, .void⟩,
  ⟨"VALUE_BITS", none, .void⟩,
  ⟨"VALUE_LEN", none, .void⟩,
  ⟨"EXTRACTABLE", none, .void⟩,
  ⟨"LOCAL", none, .void⟩,
  ⟨"NEVER_EXTRACTABLE", none, .void⟩,
  ⟨"ALWAYS_SENSITIVE", none, .void⟩,
  ⟨"KEY_GEN_MECHANISM", none, .void⟩,
  ⟨"EC_PARAMS", none, .void⟩,
  ⟨"EC_POINT", none, .void⟩,
  ⟨"ALWAYS_AUTHENTICATE", none, .void⟩,
  ⟨"WRAP_WITH_TRUSTED", none, .void⟩,
  ⟨"WRAP_TEMPLATE", none, .void⟩,
  ⟨"UNWRAP_TEMPLATE", none, .void⟩,
  ⟨"DERIVE_TEMPLATE", none, .void⟩,
  ⟨"OTP_FORMAT", none, .void⟩,
  ⟨"OTP_LENGTH", none, .void⟩,
  ⟨"OTP_TIME_INTERVAL", none, .void⟩,
  ⟨"OTP_USER_FRIENDLY_MODE", none, .void⟩,
  ⟨"OTP_CHALLENGE_REQUIREMENT", none, .void⟩,
  ⟨"OTP_TIME_REQUIREMENT", none, .void⟩,
  ⟨"OTP_COUNTER_REQUIREMENT", none, .void⟩,
  ⟨"OTP_PIN_REQUIREMENT", none, .void⟩,
  ⟨"OTP_COUNTER", none, .void⟩,
  ⟨"OTP_TIME", none, .void⟩,
  ⟨"OTP_USER_IDENTIFIER", none, .void⟩,
  ⟨"OTP_SERVICE_IDENTIFIER", none, .void⟩,
  ⟨"OTP_SERVICE_LOGO", none, .void⟩,
  ⟨"OTP_SERVICE_LOGO_TYPE", none, .void⟩,
  ⟨"GOSTR3410_PARAMS", none, .void⟩,
  ⟨"GOSTR3411_PARAMS", none, .void⟩,
  ⟨"GOST28147_PARAMS", none, .void⟩,
  ⟨"MECHANISM_TYPE", none, .void⟩,
  ⟨"REQUIRED_CMS_ATTRIBUTES", none, .void⟩,
  ⟨"DEFAULT_CMS_ATTRIBUTES", none, .void⟩,
  ⟨"SUPPORTED_CMS_ATTRIBUTES", none, .void⟩,
  ⟨"ALLOWED_MECHANISMS", none, .void⟩,
  ⟨"PROFILE_ID", none, .void⟩,
  ⟨"VENDOR_DEFINED", none, .void⟩]

/-- The value of an enumerator of `enums::Attribute` (Enums.hpp 440-572): template arguments are compared by it. -/
def value (n : String) : Option Nat := (eAttribute.values.find? (·.1 = n)).map (·.2)

/-- The specialisation an argument selects. -/
def select (l : List Trait) (v : Nat) (tag : Option String) : Option Trait := l.find? fun t => value t.name = some v ∧ t.tag = tag

/-- Attribute.hpp 1301-1323: instantiating `wrapper::Attribute<a>`.  1307: the primary `Trait` has no definition.  1308: the assertion
demands that the value type *is* `void`.  1322: the member `value` of that type. -/
def instantiate (l : List Trait) (v : Nat) : Ct VT :=
  match select l v none with
  | none => .error
  | some t => if t.type ≠ .void then .error else if t.type = .void then .error else .val t.type

/-- Were the assertion the one its text ("Need type") announces. -/
def instantiateMeant (l : List Trait) (v : Nat) : Ct VT :=
  match select l v none with
  | none => .error
  | some t => if t.type = .void then .error else .val t.type

end Flame.PkAttr
