/-!
# The enumerations of include/FlameIDE/Crypto/Pkcs11/Types/Enums.hpp

Generated by tools/enumtable.py; the values are those of include/FlameIDE/Crypto/Oasis/pkcs11t.h.
-/

namespace Flame.PkEnum

/-- One enumeration: its name, the bits of its underlying type (LP64), whether FLAG_OPERATORS (Enums.hpp 54-56) is applied to it,
and its enumerators with their values. -/
structure EnumDef where
  name : String
  bits : Nat
  flags : Bool
  values : List (String × Nat)

/-- Enums.hpp 60-65 -/
def eVersion : EnumDef := ⟨"Version", 8, false, [
  ("MAJOR", 0x3), ("MINOR", 0x0), ("AMENDMENT", 0x0)]⟩

/-- Enums.hpp 70-74 -/
def eBool : EnumDef := ⟨"Bool", 8, false, [
  ("OASIS_TRUE", 0x1), ("OASIS_FALSE", 0x0)]⟩

/-- Enums.hpp 79-87 -/
def eSpecialValue : EnumDef := ⟨"SpecialValue", 64, false, [
  ("UNAVAILABLE_INFORMATION", 0xffffffffffffffff), ("EFFECTIVELY_INFINITE", 0x0), ("INVALID_HANDLE", 0x0)]⟩

/-- Enums.hpp 93-97 -/
def eNotification : EnumDef := ⟨"Notification", 64, false, [
  ("SURRENDER", 0x0), ("OTP_CHANGED", 0x1)]⟩

/-- Enums.hpp 102-112 -/
def eSlotFlags : EnumDef := ⟨"SlotFlags", 64, true, [
  ("TOKEN_PRESENT", 0x1), ("REMOVABLE_DEVICE", 0x2), ("HW_SLOT", 0x4)]⟩

/-- Enums.hpp 118-207 -/
def eTokenInfoFlags : EnumDef := ⟨"TokenInfoFlags", 64, true, [
  ("RNG", 0x1), ("WRITE_PROTECTED", 0x2), ("LOGIN_REQUIRED", 0x4), ("USER_PIN_INITIALIZED", 0x8),
  ("RESTORE_KEY_NOT_NEEDED", 0x20), ("CLOCK_ON_TOKEN", 0x40), ("PROTECTED_AUTHENTICATION_PATH", 0x100), ("DUAL_CRYPTO_OPERATIONS", 0x200),
  ("TOKEN_INITIALIZED", 0x400), ("SECONDARY_AUTHENTICATION", 0x800), ("USER_PIN_COUNT_LOW", 0x10000), ("USER_PIN_FINAL_TRY", 0x20000),
  ("USER_PIN_LOCKED", 0x40000), ("USER_PIN_TO_BE_CHANGED", 0x80000), ("SO_PIN_COUNT_LOW", 0x100000), ("SO_PIN_FINAL_TRY", 0x200000),
  ("SO_PIN_LOCKED", 0x400000), ("SO_PIN_TO_BE_CHANGED", 0x800000), ("ERROR_STATE", 0x1000000)]⟩

/-- Enums.hpp 213-223 -/
def eUser : EnumDef := ⟨"User", 64, false, [
  ("SECURITY_OFFICER", 0x0), ("USER", 0x1), ("CONTEXT_SPECIFIC", 0x2)]⟩

/-- Enums.hpp 228-244 -/
def eState : EnumDef := ⟨"State", 64, false, [
  ("RO_PUBLIC_SESSION", 0x0), ("RO_USER_FUNCTIONS", 0x1), ("RW_PUBLIC_SESSION", 0x2), ("RW_USER_FUNCTIONS", 0x3),
  ("RW_SO_FUNCTIONS", 0x4)]⟩

/-- Enums.hpp 249-256 -/
def eSessionFlags : EnumDef := ⟨"SessionFlags", 64, true, [
  ("RW_SESSION", 0x2), ("SERIAL_SESSION", 0x4)]⟩

/-- Enums.hpp 262-278 -/
def eObjectClass : EnumDef := ⟨"ObjectClass", 64, false, [
  ("DATA", 0x0), ("CERTIFICATE", 0x1), ("PUBLIC_KEY", 0x2), ("PRIVATE_KEY", 0x3),
  ("SECRET_KEY", 0x4), ("HW_FEATURE", 0x5), ("DOMAIN_PARAMETERS", 0x6), ("MECHANISM", 0x7),
  ("OTP_KEY", 0x8), ("PROFILE", 0x9), ("VENDOR_DEFINED", 0x80000000)]⟩

/-- Enums.hpp 282-290 -/
def eProfileId : EnumDef := ⟨"ProfileId", 64, false, [
  ("INVALID_ID", 0x0), ("BASELINE_PROVIDER", 0x1), ("EXTENDED_PROVIDER", 0x2), ("AUTHENTICATION_TOKEN", 0x3),
  ("PUBLIC_CERTIFICATES_TOKEN", 0x4), ("VENDOR_DEFINED", 0x80000000)]⟩

/-- Enums.hpp 295-301 -/
def eHardwareFeature : EnumDef := ⟨"HardwareFeature", 64, false, [
  ("MONOTONIC_COUNTER", 0x1), ("CLOCK", 0x2), ("USER_INTERFACE", 0x3), ("VENDOR_DEFINED", 0x80000000)]⟩

/-- Enums.hpp 305-372 -/
def eKey : EnumDef := ⟨"Key", 64, false, [
  ("RSA", 0x0), ("DSA", 0x1), ("DH", 0x2), ("EC", 0x3),
  ("X9_42_DH", 0x4), ("KEA", 0x5), ("GENERIC_SECRET", 0x10), ("RC2", 0x11),
  ("RC4", 0x12), ("DES", 0x13), ("DES2", 0x14), ("DES3", 0x15),
  ("CAST", 0x16), ("CAST3", 0x17), ("CAST128", 0x18), ("RC5", 0x19),
  ("IDEA", 0x1a), ("SKIPJACK", 0x1b), ("BATON", 0x1c), ("JUNIPER", 0x1d),
  ("CDMF", 0x1e), ("AES", 0x1f), ("BLOWFISH", 0x20), ("TWOFISH", 0x21),
  ("SECURID", 0x22), ("HOTP", 0x23), ("ACTI", 0x24), ("CAMELLIA", 0x25),
  ("ARIA", 0x26), ("MD5_HMAC", 0x27), ("SHA_1_HMAC", 0x28), ("RIPEMD128_HMAC", 0x29),
  ("RIPEMD160_HMAC", 0x2a), ("SHA256_HMAC", 0x2b), ("SHA384_HMAC", 0x2c), ("SHA512_HMAC", 0x2d),
  ("SHA224_HMAC", 0x2e), ("SEED", 0x2f), ("GOSTR3410", 0x30), ("GOSTR3411", 0x31),
  ("GOST28147", 0x32), ("CHACHA20", 0x33), ("POLY1305", 0x34), ("AES_XTS", 0x35),
  ("SHA3_224_HMAC", 0x36), ("SHA3_256_HMAC", 0x37), ("SHA3_384_HMAC", 0x38), ("SHA3_512_HMAC", 0x39),
  ("BLAKE2B_160_HMAC", 0x3a), ("BLAKE2B_256_HMAC", 0x3b), ("BLAKE2B_384_HMAC", 0x3c), ("BLAKE2B_512_HMAC", 0x3d),
  ("SALSA20", 0x3e), ("X2RATCHET", 0x3f), ("EC_EDWARDS", 0x40), ("EC_MONTGOMERY", 0x41),
  ("HKDF", 0x42), ("VENDOR_DEFINED", 0x80000000)]⟩

/-- Enums.hpp 377-383 -/
def eCertificateCategory : EnumDef := ⟨"CertificateCategory", 64, false, [
  ("UNSPECIFIED", 0x0), ("TOKEN_USER", 0x1), ("AUTHORITY", 0x2), ("OTHER_ENTITY", 0x3)]⟩

/-- Enums.hpp 388-394 -/
def eSecurityDomain : EnumDef := ⟨"SecurityDomain", 64, false, [
  ("UNSPECIFIED", 0x0), ("MANUFACTURER", 0x1), ("OPERATOR", 0x2), ("THIRD_PARTY", 0x3)]⟩

/-- Enums.hpp 399-405 -/
def eCertificate : EnumDef := ⟨"Certificate", 64, false, [
  ("X_509", 0x0), ("X_509_ATTR_CERT", 0x1), ("WTLS", 0x2), ("VENDOR_DEFINED", 0x80000000)]⟩

/-- Enums.hpp 410-413 -/
def eAttributeFlags : EnumDef := ⟨"AttributeFlags", 64, true, [
  ("ARRAY_ATTRIBUTE", 0x40000000)]⟩

/-- Enums.hpp 419-425 -/
def eOtpFormat : EnumDef := ⟨"OtpFormat", 64, false, [
  ("DECIMAL", 0x0), ("HEXADECIMAL", 0x1), ("ALPHANUMERIC", 0x2), ("BINARY", 0x3)]⟩

/-- Enums.hpp 430-435 -/
def eOtpParamAttributes : EnumDef := ⟨"OtpParamAttributes", 64, false, [
  ("PARAM_IGNORED", 0x0), ("PARAM_OPTIONAL", 0x1), ("PARAM_MANDATORY", 0x2)]⟩

/-- Enums.hpp 440-572 -/
def eAttribute : EnumDef := ⟨"Attribute", 64, false, [
  ("CLASS", 0x0), ("TOKEN", 0x1), ("PRIVATE", 0x2), ("LABEL", 0x3),
  ("UNIQUE_ID", 0x4), ("APPLICATION", 0x10), ("VALUE", 0x11), ("OBJECT_ID", 0x12),
  ("CERTIFICATE_TYPE", 0x80), ("ISSUER", 0x81), ("SERIAL_NUMBER", 0x82), ("AC_ISSUER", 0x83),
  ("OWNER", 0x84), ("ATTR_TYPES", 0x85), ("TRUSTED", 0x86), ("CERTIFICATE_CATEGORY", 0x87),
  ("JAVA_MIDP_SECURITY_DOMAIN", 0x88), ("URL", 0x89), ("HASH_OF_SUBJECT_PUBLIC_KEY", 0x8a), ("HASH_OF_ISSUER_PUBLIC_KEY", 0x8b),
  ("NAME_HASH_ALGORITHM", 0x8c), ("CHECK_VALUE", 0x90), ("KEY_TYPE", 0x100), ("SUBJECT", 0x101),
  ("ID", 0x102), ("SENSITIVE", 0x103), ("ENCRYPT", 0x104), ("DECRYPT", 0x105),
  ("WRAP", 0x106), ("UNWRAP", 0x107), ("SIGN", 0x108), ("SIGN_RECOVER", 0x109),
  ("VERIFY", 0x10a), ("VERIFY_RECOVER", 0x10b), ("DERIVE", 0x10c), ("START_DATE", 0x110),
  ("END_DATE", 0x111), ("MODULUS", 0x120), ("MODULUS_BITS", 0x121), ("PUBLIC_EXPONENT", 0x122),
  ("PRIVATE_EXPONENT", 0x123), ("PRIME_1", 0x124), ("PRIME_2", 0x125), ("EXPONENT_1", 0x126),
  ("EXPONENT_2", 0x127), ("COEFFICIENT", 0x128), ("PUBLIC_KEY_INFO", 0x129), ("PRIME", 0x130),
  ("SUBPRIME", 0x131), ("BASE", 0x132), ("PRIME_BITS", 0x133), ("SUBPRIME_BITS", 0x134),
  ("SUB_PRIME_BITS", 0x134), ("VALUE_BITS", 0x160), ("VALUE_LEN", 0x161), ("EXTRACTABLE", 0x162),
  ("LOCAL", 0x163), ("NEVER_EXTRACTABLE", 0x164), ("ALWAYS_SENSITIVE", 0x165), ("KEY_GEN_MECHANISM", 0x166),
  ("MODIFIABLE", 0x170), ("COPYABLE", 0x171), ("DESTROYABLE", 0x172), ("EC_PARAMS", 0x180),
  ("EC_POINT", 0x181), ("ALWAYS_AUTHENTICATE", 0x202), ("WRAP_WITH_TRUSTED", 0x210), ("WRAP_TEMPLATE", 0x40000211),
  ("UNWRAP_TEMPLATE", 0x40000212), ("DERIVE_TEMPLATE", 0x40000213), ("OTP_FORMAT", 0x220), ("OTP_LENGTH", 0x221),
  ("OTP_TIME_INTERVAL", 0x222), ("OTP_USER_FRIENDLY_MODE", 0x223), ("OTP_CHALLENGE_REQUIREMENT", 0x224), ("OTP_TIME_REQUIREMENT", 0x225),
  ("OTP_COUNTER_REQUIREMENT", 0x226), ("OTP_PIN_REQUIREMENT", 0x227), ("OTP_COUNTER", 0x22e), ("OTP_TIME", 0x22f),
  ("OTP_USER_IDENTIFIER", 0x22a), ("OTP_SERVICE_IDENTIFIER", 0x22b), ("OTP_SERVICE_LOGO", 0x22c), ("OTP_SERVICE_LOGO_TYPE", 0x22d),
  ("GOSTR3410_PARAMS", 0x250), ("GOSTR3411_PARAMS", 0x251), ("GOST28147_PARAMS", 0x252), ("HW_FEATURE_TYPE", 0x300),
  ("RESET_ON_INIT", 0x301), ("HAS_RESET", 0x302), ("PIXEL_X", 0x400), ("PIXEL_Y", 0x401),
  ("RESOLUTION", 0x402), ("CHAR_ROWS", 0x403), ("CHAR_COLUMNS", 0x404), ("COLOR", 0x405),
  ("BITS_PER_PIXEL", 0x406), ("CHAR_SETS", 0x480), ("ENCODING_METHODS", 0x481), ("MIME_TYPES", 0x482),
  ("MECHANISM_TYPE", 0x500), ("REQUIRED_CMS_ATTRIBUTES", 0x501), ("DEFAULT_CMS_ATTRIBUTES", 0x502), ("SUPPORTED_CMS_ATTRIBUTES", 0x503),
  ("ALLOWED_MECHANISMS", 0x40000600), ("PROFILE_ID", 0x601), ("VENDOR_DEFINED", 0x80000000)]⟩

/-- Enums.hpp 577-1153 -/
def eMechanism : EnumDef := ⟨"Mechanism", 64, false, [
  ("RSA_PKCS_KEY_PAIR_GEN", 0x0), ("RSA_PKCS", 0x1), ("RSA_9796", 0x2), ("RSA_X_509", 0x3),
  ("MD2_RSA_PKCS", 0x4), ("MD5_RSA_PKCS", 0x5), ("SHA1_RSA_PKCS", 0x6), ("RIPEMD128_RSA_PKCS", 0x7),
  ("RIPEMD160_RSA_PKCS", 0x8), ("RSA_PKCS_OAEP", 0x9), ("RSA_X9_31_KEY_PAIR_GEN", 0xa), ("RSA_X9_31", 0xb),
  ("SHA1_RSA_X9_31", 0xc), ("RSA_PKCS_PSS", 0xd), ("SHA1_RSA_PKCS_PSS", 0xe), ("DSA_KEY_PAIR_GEN", 0x10),
  ("DSA", 0x11), ("DSA_SHA1", 0x12), ("DSA_SHA224", 0x13), ("DSA_SHA256", 0x14),
  ("DSA_SHA384", 0x15), ("DSA_SHA512", 0x16), ("DSA_SHA3_224", 0x18), ("DSA_SHA3_256", 0x19),
  ("DSA_SHA3_384", 0x1a), ("DSA_SHA3_512", 0x1b), ("DH_PKCS_KEY_PAIR_GEN", 0x20), ("DH_PKCS_DERIVE", 0x21),
  ("X9_42_DH_KEY_PAIR_GEN", 0x30), ("X9_42_DH_DERIVE", 0x31), ("X9_42_DH_HYBRID_DERIVE", 0x32), ("X9_42_MQV_DERIVE", 0x33),
  ("SHA256_RSA_PKCS", 0x40), ("SHA384_RSA_PKCS", 0x41), ("SHA512_RSA_PKCS", 0x42), ("SHA256_RSA_PKCS_PSS", 0x43),
  ("SHA384_RSA_PKCS_PSS", 0x44), ("SHA512_RSA_PKCS_PSS", 0x45), ("SHA224_RSA_PKCS", 0x46), ("SHA224_RSA_PKCS_PSS", 0x47),
  ("SHA512_224", 0x48), ("SHA512_224_HMAC", 0x49), ("SHA512_224_HMAC_GENERAL", 0x4a), ("SHA512_224_KEY_DERIVATION", 0x4b),
  ("SHA512_256", 0x4c), ("SHA512_256_HMAC", 0x4d), ("SHA512_256_HMAC_GENERAL", 0x4e), ("SHA512_256_KEY_DERIVATION", 0x4f),
  ("SHA512_T", 0x50), ("SHA512_T_HMAC", 0x51), ("SHA512_T_HMAC_GENERAL", 0x52), ("SHA512_T_KEY_DERIVATION", 0x53),
  ("SHA3_256_RSA_PKCS", 0x60), ("SHA3_384_RSA_PKCS", 0x61), ("SHA3_512_RSA_PKCS", 0x62), ("SHA3_256_RSA_PKCS_PSS", 0x63),
  ("SHA3_384_RSA_PKCS_PSS", 0x64), ("SHA3_512_RSA_PKCS_PSS", 0x65), ("SHA3_224_RSA_PKCS", 0x66), ("SHA3_224_RSA_PKCS_PSS", 0x67),
  ("RC2_KEY_GEN", 0x100), ("RC2_ECB", 0x101), ("RC2_CBC", 0x102), ("RC2_MAC", 0x103),
  ("RC2_MAC_GENERAL", 0x104), ("RC2_CBC_PAD", 0x105), ("RC4_KEY_GEN", 0x110), ("RC4", 0x111),
  ("DES_KEY_GEN", 0x120), ("DES_ECB", 0x121), ("DES_CBC", 0x122), ("DES_MAC", 0x123),
  ("DES_MAC_GENERAL", 0x124), ("DES_CBC_PAD", 0x125), ("DES2_KEY_GEN", 0x130), ("DES3_KEY_GEN", 0x131),
  ("DES3_ECB", 0x132), ("DES3_CBC", 0x133), ("DES3_MAC", 0x134), ("DES3_MAC_GENERAL", 0x135),
  ("DES3_CBC_PAD", 0x136), ("DES3_CMAC_GENERAL", 0x137), ("DES3_CMAC", 0x138), ("CDMF_KEY_GEN", 0x140),
  ("CDMF_ECB", 0x141), ("CDMF_CBC", 0x142), ("CDMF_MAC", 0x143), ("CDMF_MAC_GENERAL", 0x144),
  ("CDMF_CBC_PAD", 0x145), ("DES_OFB64", 0x150), ("DES_OFB8", 0x151), ("DES_CFB64", 0x152),
  ("DES_CFB8", 0x153), ("MD2", 0x200), ("MD2_HMAC", 0x201), ("MD2_HMAC_GENERAL", 0x202),
  ("MD5", 0x210), ("MD5_HMAC", 0x211), ("MD5_HMAC_GENERAL", 0x212), ("SHA_1", 0x220),
  ("SHA_1_HMAC", 0x221), ("SHA_1_HMAC_GENERAL", 0x222), ("RIPEMD128", 0x230), ("RIPEMD128_HMAC", 0x231),
  ("RIPEMD128_HMAC_GENERAL", 0x232), ("RIPEMD160", 0x240), ("RIPEMD160_HMAC", 0x241), ("RIPEMD160_HMAC_GENERAL", 0x242),
  ("SHA256", 0x250), ("SHA256_HMAC", 0x251), ("SHA256_HMAC_GENERAL", 0x252), ("SHA224", 0x255),
  ("SHA224_HMAC", 0x256), ("SHA224_HMAC_GENERAL", 0x257), ("SHA384", 0x260), ("SHA384_HMAC", 0x261),
  ("SHA384_HMAC_GENERAL", 0x262), ("SHA512", 0x270), ("SHA512_HMAC", 0x271), ("SHA512_HMAC_GENERAL", 0x272),
  ("SECURID_KEY_GEN", 0x280), ("SECURID", 0x282), ("HOTP_KEY_GEN", 0x290), ("HOTP", 0x291),
  ("ACTI", 0x2a0), ("ACTI_KEY_GEN", 0x2a1), ("SHA3_256", 0x2b0), ("SHA3_256_HMAC", 0x2b1),
  ("SHA3_256_HMAC_GENERAL", 0x2b2), ("SHA3_256_KEY_GEN", 0x2b3), ("SHA3_224", 0x2b5), ("SHA3_224_HMAC", 0x2b6),
  ("SHA3_224_HMAC_GENERAL", 0x2b7), ("SHA3_224_KEY_GEN", 0x2b8), ("SHA3_384", 0x2c0), ("SHA3_384_HMAC", 0x2c1),
  ("SHA3_384_HMAC_GENERAL", 0x2c2), ("SHA3_384_KEY_GEN", 0x2c3), ("SHA3_512", 0x2d0), ("SHA3_512_HMAC", 0x2d1),
  ("SHA3_512_HMAC_GENERAL", 0x2d2), ("SHA3_512_KEY_GEN", 0x2d3), ("CAST_KEY_GEN", 0x300), ("CAST_ECB", 0x301),
  ("CAST_CBC", 0x302), ("CAST_MAC", 0x303), ("CAST_MAC_GENERAL", 0x304), ("CAST_CBC_PAD", 0x305),
  ("CAST3_KEY_GEN", 0x310), ("CAST3_ECB", 0x311), ("CAST3_CBC", 0x312), ("CAST3_MAC", 0x313),
  ("CAST3_MAC_GENERAL", 0x314), ("CAST3_CBC_PAD", 0x315), ("CAST128_KEY_GEN", 0x320), ("CAST128_ECB", 0x321),
  ("CAST128_CBC", 0x322), ("CAST128_MAC", 0x323), ("CAST128_MAC_GENERAL", 0x324), ("CAST128_CBC_PAD", 0x325),
  ("RC5_KEY_GEN", 0x330), ("RC5_ECB", 0x331), ("RC5_CBC", 0x332), ("RC5_MAC", 0x333),
  ("RC5_MAC_GENERAL", 0x334), ("RC5_CBC_PAD", 0x335), ("IDEA_KEY_GEN", 0x340), ("IDEA_ECB", 0x341),
  ("IDEA_CBC", 0x342), ("IDEA_MAC", 0x343), ("IDEA_MAC_GENERAL", 0x344), ("IDEA_CBC_PAD", 0x345),
  ("GENERIC_SECRET_KEY_GEN", 0x350), ("CONCATENATE_BASE_AND_KEY", 0x360), ("CONCATENATE_BASE_AND_DATA", 0x362), ("CONCATENATE_DATA_AND_BASE", 0x363),
  ("XOR_BASE_AND_DATA", 0x364), ("EXTRACT_KEY_FROM_KEY", 0x365), ("SSL3_PRE_MASTER_KEY_GEN", 0x370), ("SSL3_MASTER_KEY_DERIVE", 0x371),
  ("SSL3_KEY_AND_MAC_DERIVE", 0x372), ("SSL3_MASTER_KEY_DERIVE_DH", 0x373), ("TLS_PRE_MASTER_KEY_GEN", 0x374), ("TLS_MASTER_KEY_DERIVE", 0x375),
  ("TLS_KEY_AND_MAC_DERIVE", 0x376), ("TLS_MASTER_KEY_DERIVE_DH", 0x377), ("TLS_PRF", 0x378), ("SSL3_MD5_MAC", 0x380),
  ("SSL3_SHA1_MAC", 0x381), ("MD5_KEY_DERIVATION", 0x390), ("MD2_KEY_DERIVATION", 0x391), ("SHA1_KEY_DERIVATION", 0x392),
  ("SHA256_KEY_DERIVATION", 0x393), ("SHA384_KEY_DERIVATION", 0x394), ("SHA512_KEY_DERIVATION", 0x395), ("SHA224_KEY_DERIVATION", 0x396),
  ("SHA3_256_KEY_DERIVE", 0x397), ("SHA3_224_KEY_DERIVE", 0x398), ("SHA3_384_KEY_DERIVE", 0x399), ("SHA3_512_KEY_DERIVE", 0x39a),
  ("SHAKE_128_KEY_DERIVE", 0x39b), ("SHAKE_256_KEY_DERIVE", 0x39c), ("PBE_MD2_DES_CBC", 0x3a0), ("PBE_MD5_DES_CBC", 0x3a1),
  ("PBE_MD5_CAST_CBC", 0x3a2), ("PBE_MD5_CAST3_CBC", 0x3a3), ("PBE_MD5_CAST128_CBC", 0x3a4), ("PBE_SHA1_CAST128_CBC", 0x3a5),
  ("PBE_SHA1_RC4_128", 0x3a6), ("PBE_SHA1_RC4_40", 0x3a7), ("PBE_SHA1_DES3_EDE_CBC", 0x3a8), ("PBE_SHA1_DES2_EDE_CBC", 0x3a9),
  ("PBE_SHA1_RC2_128_CBC", 0x3aa), ("PBE_SHA1_RC2_40_CBC", 0x3ab), ("PKCS5_PBKD2", 0x3b0), ("PBA_SHA1_WITH_SHA1_HMAC", 0x3c0),
  ("WTLS_PRE_MASTER_KEY_GEN", 0x3d0), ("WTLS_MASTER_KEY_DERIVE", 0x3d1), ("WTLS_MASTER_KEY_DERIVE_DH_ECC", 0x3d2), ("WTLS_PRF", 0x3d3),
  ("WTLS_SERVER_KEY_AND_MAC_DERIVE", 0x3d4), ("WTLS_CLIENT_KEY_AND_MAC_DERIVE", 0x3d5), ("TLS10_MAC_SERVER", 0x3d6), ("TLS10_MAC_CLIENT", 0x3d7),
  ("TLS12_MAC", 0x3d8), ("TLS12_KDF", 0x3d9), ("TLS12_MASTER_KEY_DERIVE", 0x3e0), ("TLS12_KEY_AND_MAC_DERIVE", 0x3e1),
  ("TLS12_MASTER_KEY_DERIVE_DH", 0x3e2), ("TLS12_KEY_SAFE_DERIVE", 0x3e3), ("TLS_MAC", 0x3e4), ("TLS_KDF", 0x3e5),
  ("KEY_WRAP_LYNKS", 0x400), ("KEY_WRAP_SET_OAEP", 0x401), ("CMS_SIG", 0x500), ("KIP_DERIVE", 0x510),
  ("KIP_WRAP", 0x511), ("KIP_MAC", 0x512), ("CAMELLIA_KEY_GEN", 0x550), ("CAMELLIA_ECB", 0x551),
  ("CAMELLIA_CBC", 0x552), ("CAMELLIA_MAC", 0x553), ("CAMELLIA_MAC_GENERAL", 0x554), ("CAMELLIA_CBC_PAD", 0x555),
  ("CAMELLIA_ECB_ENCRYPT_DATA", 0x556), ("CAMELLIA_CBC_ENCRYPT_DATA", 0x557), ("CAMELLIA_CTR", 0x558), ("ARIA_KEY_GEN", 0x560),
  ("ARIA_ECB", 0x561), ("ARIA_CBC", 0x562), ("ARIA_MAC", 0x563), ("ARIA_MAC_GENERAL", 0x564),
  ("ARIA_CBC_PAD", 0x565), ("ARIA_ECB_ENCRYPT_DATA", 0x566), ("ARIA_CBC_ENCRYPT_DATA", 0x567), ("SEED_KEY_GEN", 0x650),
  ("SEED_ECB", 0x651), ("SEED_CBC", 0x652), ("SEED_MAC", 0x653), ("SEED_MAC_GENERAL", 0x654),
  ("SEED_CBC_PAD", 0x655), ("SEED_ECB_ENCRYPT_DATA", 0x656), ("SEED_CBC_ENCRYPT_DATA", 0x657), ("SKIPJACK_KEY_GEN", 0x1000),
  ("SKIPJACK_ECB64", 0x1001), ("SKIPJACK_CBC64", 0x1002), ("SKIPJACK_OFB64", 0x1003), ("SKIPJACK_CFB64", 0x1004),
  ("SKIPJACK_CFB32", 0x1005), ("SKIPJACK_CFB16", 0x1006), ("SKIPJACK_CFB8", 0x1007), ("SKIPJACK_WRAP", 0x1008),
  ("SKIPJACK_PRIVATE_WRAP", 0x1009), ("SKIPJACK_RELAYX", 0x100a), ("KEA_KEY_PAIR_GEN", 0x1010), ("KEA_KEY_DERIVE", 0x1011),
  ("KEA_DERIVE", 0x1012), ("FORTEZZA_TIMESTAMP", 0x1020), ("BATON_KEY_GEN", 0x1030), ("BATON_ECB128", 0x1031),
  ("BATON_ECB96", 0x1032), ("BATON_CBC128", 0x1033), ("BATON_COUNTER", 0x1034), ("BATON_SHUFFLE", 0x1035),
  ("BATON_WRAP", 0x1036), ("EC_KEY_PAIR_GEN", 0x1040), ("ECDSA", 0x1041), ("ECDSA_SHA1", 0x1042),
  ("ECDSA_SHA224", 0x1043), ("ECDSA_SHA256", 0x1044), ("ECDSA_SHA384", 0x1045), ("ECDSA_SHA512", 0x1046),
  ("ECDH1_DERIVE", 0x1050), ("ECDH1_COFACTOR_DERIVE", 0x1051), ("ECMQV_DERIVE", 0x1052), ("ECDH_AES_KEY_WRAP", 0x1053),
  ("RSA_AES_KEY_WRAP", 0x1054), ("JUNIPER_KEY_GEN", 0x1060), ("JUNIPER_ECB128", 0x1061), ("JUNIPER_CBC128", 0x1062),
  ("JUNIPER_COUNTER", 0x1063), ("JUNIPER_SHUFFLE", 0x1064), ("JUNIPER_WRAP", 0x1065), ("FASTHASH", 0x1070),
  ("AES_XTS", 0x1071), ("AES_XTS_KEY_GEN", 0x1072), ("AES_KEY_GEN", 0x1080), ("AES_ECB", 0x1081),
  ("AES_CBC", 0x1082), ("AES_MAC", 0x1083), ("AES_MAC_GENERAL", 0x1084), ("AES_CBC_PAD", 0x1085),
  ("AES_CTR", 0x1086), ("AES_GCM", 0x1087), ("AES_CCM", 0x1088), ("AES_CTS", 0x1089),
  ("AES_CMAC", 0x108a), ("AES_CMAC_GENERAL", 0x108b), ("AES_XCBC_MAC", 0x108c), ("AES_XCBC_MAC_96", 0x108d),
  ("AES_GMAC", 0x108e), ("BLOWFISH_KEY_GEN", 0x1090), ("BLOWFISH_CBC", 0x1091), ("TWOFISH_KEY_GEN", 0x1092),
  ("TWOFISH_CBC", 0x1093), ("BLOWFISH_CBC_PAD", 0x1094), ("TWOFISH_CBC_PAD", 0x1095), ("DES_ECB_ENCRYPT_DATA", 0x1100),
  ("DES_CBC_ENCRYPT_DATA", 0x1101), ("DES3_ECB_ENCRYPT_DATA", 0x1102), ("DES3_CBC_ENCRYPT_DATA", 0x1103), ("AES_ECB_ENCRYPT_DATA", 0x1104),
  ("AES_CBC_ENCRYPT_DATA", 0x1105), ("GOSTR3410_KEY_PAIR_GEN", 0x1200), ("GOSTR3410", 0x1201), ("GOSTR3410_WITH_GOSTR3411", 0x1202),
  ("GOSTR3410_KEY_WRAP", 0x1203), ("GOSTR3410_DERIVE", 0x1204), ("GOSTR3411", 0x1210), ("GOSTR3411_HMAC", 0x1211),
  ("GOST28147_KEY_GEN", 0x1220), ("GOST28147_ECB", 0x1221), ("GOST28147", 0x1222), ("GOST28147_MAC", 0x1223),
  ("GOST28147_KEY_WRAP", 0x1224), ("CHACHA20_KEY_GEN", 0x1225), ("CHACHA20", 0x1226), ("POLY1305_KEY_GEN", 0x1227),
  ("POLY1305", 0x1228), ("DSA_PARAMETER_GEN", 0x2000), ("DH_PKCS_PARAMETER_GEN", 0x2001), ("X9_42_DH_PARAMETER_GEN", 0x2002),
  ("DSA_PROBABLISTIC_PARAMETER_GEN", 0x2003), ("DSA_SHAWE_TAYLOR_PARAMETER_GEN", 0x2004), ("AES_OFB", 0x2104), ("AES_CFB64", 0x2105),
  ("AES_CFB8", 0x2106), ("AES_CFB128", 0x2107), ("AES_CFB1", 0x2108), ("AES_KEY_WRAP", 0x2109),
  ("AES_KEY_WRAP_PAD", 0x210a), ("AES_KEY_WRAP_KWP", 0x210b), ("RSA_PKCS_TPM_1_1", 0x4001), ("RSA_PKCS_OAEP_TPM_1_1", 0x4002),
  ("SHA_1_KEY_GEN", 0x4003), ("SHA224_KEY_GEN", 0x4004), ("SHA256_KEY_GEN", 0x4005), ("SHA384_KEY_GEN", 0x4006),
  ("SHA512_KEY_GEN", 0x4007), ("SHA512_224_KEY_GEN", 0x4008), ("SHA512_256_KEY_GEN", 0x4009), ("SHA512_T_KEY_GEN", 0x400a),
  ("MECHANISM_NULL", 0x400b), ("BLAKE2B_160", 0x400c), ("BLAKE2B_160_HMAC", 0x400d), ("BLAKE2B_160_HMAC_GENERAL", 0x400e),
  ("BLAKE2B_160_KEY_DERIVE", 0x400f), ("BLAKE2B_160_KEY_GEN", 0x4010), ("BLAKE2B_256", 0x4011), ("BLAKE2B_256_HMAC", 0x4012),
  ("E2B_256_HMAC_GENERAL", 0x4013), ("BLAKE2B_256_KEY_DERIVE", 0x4014), ("BLAKE2B_256_KEY_GEN", 0x4015), ("BLAKE2B_384", 0x4016),
  ("BLAKE2B_384_HMAC", 0x4017), ("BLAKE2B_384_HMAC_GENERAL", 0x4018), ("BLAKE2B_384_KEY_DERIVE", 0x4019), ("BLAKE2B_384_KEY_GEN", 0x401a),
  ("BLAKE2B_512", 0x401b), ("BLAKE2B_512_HMAC", 0x401c), ("BLAKE2B_512_HMAC_GENERAL", 0x401d), ("BLAKE2B_512_KEY_DERIVE", 0x401e),
  ("BLAKE2B_512_KEY_GEN", 0x401f), ("SALSA20", 0x4020), ("CHACHA20_POLY1305", 0x4021), ("SALSA20_POLY1305", 0x4022),
  ("X3DH_INITIALIZE", 0x4023), ("X3DH_RESPOND", 0x4024), ("X2RATCHET_INITIALIZE", 0x4025), ("X2RATCHET_RESPOND", 0x4026),
  ("X2RATCHET_ENCRYPT", 0x4027), ("X2RATCHET_DECRYPT", 0x4028), ("XEDDSA", 0x4029), ("HKDF_DERIVE", 0x402a),
  ("HKDF_DATA", 0x402b), ("HKDF_KEY_GEN", 0x402c), ("ECDSA_SHA3_224", 0x1047), ("ECDSA_SHA3_256", 0x1048),
  ("ECDSA_SHA3_384", 0x1049), ("ECDSA_SHA3_512", 0x104a), ("EC_EDWARDS_KEY_PAIR_GEN", 0x1055), ("EC_MONTGOMERY_KEY_PAIR_GEN", 0x1056),
  ("EDDSA", 0x1057), ("SP800_108_COUNTER_KDF", 0x3ac), ("SP800_108_FEEDBACK_KDF", 0x3ad), ("SP800_108_DOUBLE_PIPELINE_KDF", 0x3ae),
  ("VENDOR_DEFINED", 0x80000000)]⟩

/-- Enums.hpp 1158-1195 -/
def eMechanismFlags : EnumDef := ⟨"MechanismFlags", 64, true, [
  ("HW", 0x1), ("MESSAGE_ENCRYPT", 0x2), ("MESSAGE_DECRYPT", 0x4), ("MESSAGE_SIGN", 0x8),
  ("MESSAGE_VERIFY", 0x10), ("MULTI_MESSGE", 0x20), ("FIND_OBJECTS", 0x40), ("ENCRYPT", 0x100),
  ("DECRYPT", 0x200), ("DIGEST", 0x400), ("SIGN", 0x800), ("SIGN_RECOVER", 0x1000),
  ("VERIFY", 0x2000), ("VERIFY_RECOVER", 0x4000), ("GENERATE", 0x8000), ("GENERATE_KEY_PAIR", 0x10000),
  ("WRAP", 0x20000), ("UNWRAP", 0x40000), ("DERIVE", 0x80000), ("EC_F_P", 0x100000),
  ("EC_F_2M", 0x200000), ("EC_ECPARAMETERS", 0x400000), ("EC_OID", 0x800000), ("EC_UNCOMPRESS", 0x1000000),
  ("EC_COMPRESS", 0x2000000), ("EC_CURVENAME", 0x4000000), ("EXTENSION", 0x80000000)]⟩

/-- Enums.hpp 1201-1331 -/
def eReturnType : EnumDef := ⟨"ReturnType", 64, false, [
  ("OK", 0x0), ("CANCEL", 0x1), ("HOST_MEMORY", 0x2), ("SLOT_ID_INVALID", 0x3),
  ("GENERAL_ERROR", 0x5), ("FUNCTION_FAILED", 0x6), ("ARGUMENTS_BAD", 0x7), ("NO_EVENT", 0x8),
  ("NEED_TO_CREATE_THREADS", 0x9), ("CANT_LOCK", 0xa), ("ATTRIBUTE_READ_ONLY", 0x10), ("ATTRIBUTE_SENSITIVE", 0x11),
  ("ATTRIBUTE_TYPE_INVALID", 0x12), ("ATTRIBUTE_VALUE_INVALID", 0x13), ("ACTION_PROHIBITED", 0x1b), ("DATA_INVALID", 0x20),
  ("DATA_LEN_RANGE", 0x21), ("DEVICE_ERROR", 0x30), ("DEVICE_MEMORY", 0x31), ("DEVICE_REMOVED", 0x32),
  ("ENCRYPTED_DATA_INVALID", 0x40), ("ENCRYPTED_DATA_LEN_RANGE", 0x41), ("AEAD_DECRYPT_FAILED", 0x42), ("FUNCTION_CANCELED", 0x50),
  ("FUNCTION_NOT_PARALLEL", 0x51), ("FUNCTION_NOT_SUPPORTED", 0x54), ("KEY_HANDLE_INVALID", 0x60), ("KEY_SIZE_RANGE", 0x62),
  ("KEY_TYPE_INCONSISTENT", 0x63), ("KEY_NOT_NEEDED", 0x64), ("KEY_CHANGED", 0x65), ("KEY_NEEDED", 0x66),
  ("KEY_INDIGESTIBLE", 0x67), ("KEY_FUNCTION_NOT_PERMITTED", 0x68), ("KEY_NOT_WRAPPABLE", 0x69), ("KEY_UNEXTRACTABLE", 0x6a),
  ("MECHANISM_INVALID", 0x70), ("MECHANISM_PARAM_INVALID", 0x71), ("OBJECT_HANDLE_INVALID", 0x82), ("OPERATION_ACTIVE", 0x90),
  ("OPERATION_NOT_INITIALIZED", 0x91), ("PIN_INCORRECT", 0xa0), ("PIN_INVALID", 0xa1), ("PIN_LEN_RANGE", 0xa2),
  ("PIN_EXPIRED", 0xa3), ("PIN_LOCKED", 0xa4), ("SESSION_CLOSED", 0xb0), ("SESSION_COUNT", 0xb1),
  ("SESSION_HANDLE_INVALID", 0xb3), ("SESSION_PARALLEL_NOT_SUPPORTED", 0xb4), ("SESSION_READ_ONLY", 0xb5), ("SESSION_EXISTS", 0xb6),
  ("SESSION_READ_ONLY_EXISTS", 0xb7), ("SESSION_READ_WRITE_SO_EXISTS", 0xb8), ("SIGNATURE_INVALID", 0xc0), ("SIGNATURE_LEN_RANGE", 0xc1),
  ("TEMPLATE_INCOMPLETE", 0xd0), ("TEMPLATE_INCONSISTENT", 0xd1), ("TOKEN_NOT_PRESENT", 0xe0), ("TOKEN_NOT_RECOGNIZED", 0xe1),
  ("TOKEN_WRITE_PROTECTED", 0xe2), ("UNWRAPPING_KEY_HANDLE_INVALID", 0xf0), ("UNWRAPPING_KEY_SIZE_RANGE", 0xf1), ("UNWRAPPING_KEY_TYPE_INCONSISTENT", 0xf2),
  ("USER_ALREADY_LOGGED_IN", 0x100), ("USER_NOT_LOGGED_IN", 0x101), ("USER_PIN_NOT_INITIALIZED", 0x102), ("USER_TYPE_INVALID", 0x103),
  ("USER_ANOTHER_ALREADY_LOGGED_IN", 0x104), ("USER_TOO_MANY_TYPES", 0x105), ("WRAPPED_KEY_INVALID", 0x110), ("WRAPPED_KEY_LEN_RANGE", 0x112),
  ("WRAPPING_KEY_HANDLE_INVALID", 0x113), ("WRAPPING_KEY_SIZE_RANGE", 0x114), ("WRAPPING_KEY_TYPE_INCONSISTENT", 0x115), ("RANDOM_SEED_NOT_SUPPORTED", 0x120),
  ("RANDOM_NO_RNG", 0x121), ("DOMAIN_PARAMS_INVALID", 0x130), ("CURVE_NOT_SUPPORTED", 0x140), ("BUFFER_TOO_SMALL", 0x150),
  ("SAVED_STATE_INVALID", 0x160), ("INFORMATION_SENSITIVE", 0x170), ("STATE_UNSAVEABLE", 0x180), ("CRYPTOKI_NOT_INITIALIZED", 0x190),
  ("CRYPTOKI_ALREADY_INITIALIZED", 0x191), ("MUTEX_BAD", 0x1a0), ("MUTEX_NOT_LOCKED", 0x1a1), ("NEW_PIN_MODE", 0x1b0),
  ("NEXT_OTP", 0x1b1), ("EXCEEDED_MAX_ITERATIONS", 0x1b5), ("FIPS_SELF_TEST_FAILED", 0x1b6), ("LIBRARY_LOAD_FAILED", 0x1b7),
  ("PIN_TOO_WEAK", 0x1b8), ("PUBLIC_KEY_INVALID", 0x1b9), ("FUNCTION_REJECTED", 0x200), ("TOKEN_RESOURCE_EXCEEDED", 0x201),
  ("VENDOR_DEFINED", 0x80000000)]⟩

/-- Enums.hpp 1335-1339 -/
def eInterfaceFlags : EnumDef := ⟨"InterfaceFlags", 64, true, [
  ("NONE", 0x0), ("END_OF_MESSAGE", 0x1)]⟩

/-- Enums.hpp 1345-1349 -/
def eFunctionListFlags : EnumDef := ⟨"FunctionListFlags", 64, true, [
  ("NULL_VALUE", 0x0), ("FORK_SAFE", 0x1)]⟩

/-- Enums.hpp 1355-1359 -/
def eInitializeArgsFlags : EnumDef := ⟨"InitializeArgsFlags", 64, true, [
  ("LIBRARY_CANT_CREATE_OS_THREADS", 0x1), ("OS_LOCKING_OK", 0x2)]⟩

/-- Enums.hpp 1365-1369 -/
def eWaitForSlotEventFlags : EnumDef := ⟨"WaitForSlotEventFlags", 64, true, [
  ("DO_BLOCK", 0x0), ("DONT_BLOCK", 0x1)]⟩

/-- Enums.hpp 1375-1383 -/
def eRsaMessageGenerationFunction : EnumDef := ⟨"RsaMessageGenerationFunction", 64, false, [
  ("SHA1", 0x1), ("SHA256", 0x2), ("SHA384", 0x3), ("SHA512", 0x4),
  ("SHA224", 0x5)]⟩

/-- Enums.hpp 1389-1392 -/
def eRsaPkcsOaepSource : EnumDef := ⟨"RsaPkcsOaepSource", 64, false, [
  ("DATA_SPECIFIED", 0x1)]⟩

/-- Enums.hpp 1397-1428 -/
def eEcKdf : EnumDef := ⟨"EcKdf", 64, false, [
  ("NONE", 0x1), ("SHA1", 0x2), ("SHA1_ASN1", 0x3), ("SHA1_CONCATENATE", 0x4),
  ("SHA224", 0x5), ("SHA256", 0x6), ("SHA384", 0x7), ("SHA512", 0x8),
  ("CPDIVERSIFY", 0x9), ("SHA3_224_KDF", 0xa), ("SHA3_256_KDF", 0xb), ("SHA3_384_KDF", 0xc),
  ("SHA3_512_KDF", 0xd), ("SHA1_KDF_SP800", 0xe), ("SHA224_KDF_SP800", 0xf), ("SHA256_KDF_SP800", 0x10),
  ("SHA384_KDF_SP800", 0x11), ("SHA512_KDF_SP800", 0x12), ("SHA3_224_KDF_SP800", 0x13), ("SHA3_256_KDF_SP800", 0x14),
  ("SHA3_384_KDF_SP800", 0x15), ("SHA3_512_KDF_SP800", 0x16), ("BLAKE2B_160_KDF", 0x17), ("BLAKE2B_256_KDF", 0x18),
  ("BLAKE2B_384_KDF", 0x19), ("BLAKE2B_512_KDF", 0x1a)]⟩

/-- Enums.hpp 1433-1444 -/
def ePkcs5Pbkd2PseudoRandomFunction : EnumDef := ⟨"Pkcs5Pbkd2PseudoRandomFunction", 64, false, [
  ("SHA1", 0x1), ("GOSTR3411", 0x2), ("SHA224", 0x3), ("SHA256", 0x4),
  ("SHA384", 0x5), ("SHA512", 0x6), ("SHA512_224", 0x7), ("SHA512_256", 0x8)]⟩

/-- Enums.hpp 1450-1453 -/
def ePkcs5Pbkdf2SaltSource : EnumDef := ⟨"Pkcs5Pbkdf2SaltSource", 64, false, [
  ("SPECIFIED", 0x1)]⟩

/-- Enums.hpp 1459-1469 -/
def eOtpParam : EnumDef := ⟨"OtpParam", 64, false, [
  ("VALUE", 0x0), ("PIN", 0x1), ("CHALLENGE", 0x2), ("TIME", 0x3),
  ("COUNTER", 0x4), ("FLAGS", 0x5), ("OUTPUT_LENGTH", 0x6), ("OUTPUT_FORMAT", 0x7)]⟩

/-- Enums.hpp 1474-1482 -/
def eOtpParamFlags : EnumDef := ⟨"OtpParamFlags", 64, true, [
  ("NEXT_OTP", 0x1), ("EXCLUDE_TIME", 0x2), ("EXCLUDE_COUNTER", 0x4), ("EXCLUDE_CHALLENGE", 0x8),
  ("EXCLUDE_PIN", 0x10), ("USER_FRIENDLY_OTP", 0x20)]⟩

/-- Enums.hpp 1490-1496 -/
def eGeneratorFunction : EnumDef := ⟨"GeneratorFunction", 64, false, [
  ("NO_GENERATE", 0x0), ("GENERATE", 0x1), ("GENERATE_COUNTER", 0x2), ("GENERATE_RANDOM", 0x3)]⟩

/-- Enums.hpp 1500-1506 -/
def eNistSp800dot108 : EnumDef := ⟨"NistSp800dot108", 64, false, [
  ("ITERATION_VARIABLE", 0x1), ("OPTIONAL_COUNTER", 0x2), ("DKM_LENGTH", 0x3), ("BYTE_ARRAY", 0x4)]⟩

/-- Enums.hpp 1510-1515 -/
def eHkdfSalt : EnumDef := ⟨"HkdfSalt", 64, false, [
  ("SALT_NULL", 0x1), ("SALT_DATA", 0x2), ("SALT_KEY", 0x4)]⟩

def table : List EnumDef := [
  eVersion, eBool, eSpecialValue, eNotification, eSlotFlags, eTokenInfoFlags,
  eUser, eState, eSessionFlags, eObjectClass, eProfileId, eHardwareFeature,
  eKey, eCertificateCategory, eSecurityDomain, eCertificate, eAttributeFlags, eOtpFormat,
  eOtpParamAttributes, eAttribute, eMechanism, eMechanismFlags, eReturnType, eInterfaceFlags,
  eFunctionListFlags, eInitializeArgsFlags, eWaitForSlotEventFlags, eRsaMessageGenerationFunction, eRsaPkcsOaepSource, eEcKdf,
  ePkcs5Pbkd2PseudoRandomFunction, ePkcs5Pbkdf2SaltSource, eOtpParam, eOtpParamFlags, eGeneratorFunction, eNistSp800dot108,
  eHkdfSalt]

end Flame.PkEnum
