import Verif.Crypto.Structs

/-!
# The PKCS#11 structures — src/Crypto/Pkcs11/Types/Structs/*.cpp

One record per file, read off the source (`tools/structs.py`): the members in order of declaration (Oasis/pkcs11t.h, pkcs11f.h), the assignments of
`operator=(const Parent &)` in order as pairs of member numbers (target, source), the members the parameters of the value constructor are declared
for, its assignments (member, parameter), and whether the default constructor sets the members (`Parent{}`).  All copy constructors, the constructors
from `Parent` and `operator=(const Self &)` call `operator=(const Parent &)`.  The line cited is that of `operator=(const Parent &)`.
-/

namespace Flame.Structs

/-- src/Crypto/Pkcs11/Types/Structs/AesCbcEncryptDataParams.cpp 42 -/
def sAesCbcEncryptDataParams : Rec :=
  { name := "AesCbcEncryptDataParams"
    fields := ["iv", "pData", "length"]
    assigns := [(0, 0), (1, 1), (2, 2)]
    params := [0, 1, 2]
    ctor := [(0, 0), (1, 1), (2, 2)]
    zeroed := false }

/-- src/Crypto/Pkcs11/Types/Structs/AesCtrParams.cpp 36 -/
def sAesCtrParams : Rec :=
  { name := "AesCtrParams"
    fields := ["ulCounterBits", "cb"]
    assigns := [(0, 0), (1, 1)]
    params := [0, 1]
    ctor := [(0, 0), (1, 1)]
    zeroed := false }

/-- src/Crypto/Pkcs11/Types/Structs/AriaCbcEncryptDataParams.cpp 40 -/
def sAriaCbcEncryptDataParams : Rec :=
  { name := "AriaCbcEncryptDataParams"
    fields := ["iv", "pData", "length"]
    assigns := [(0, 0), (1, 1), (2, 2)]
    params := [0, 1, 2]
    ctor := [(0, 0), (1, 1), (2, 2)]
    zeroed := false }

/-- src/Crypto/Pkcs11/Types/Structs/Attribute.cpp 37 -/
def sAttribute : Rec :=
  { name := "Attribute"
    fields := ["type", "pValue", "ulValueLen"]
    assigns := [(0, 0), (1, 1), (2, 2)]
    params := [0, 1, 2]
    ctor := [(0, 0), (1, 1), (2, 2)]
    zeroed := true }

/-- src/Crypto/Pkcs11/Types/Structs/CamelliaCbcEncryptDataParams.cpp 42 -/
def sCamelliaCbcEncryptDataParams : Rec :=
  { name := "CamelliaCbcEncryptDataParams"
    fields := ["iv", "pData", "length"]
    assigns := [(0, 0), (1, 1), (2, 2)]
    params := [0, 1, 2]
    ctor := [(0, 0), (1, 1), (2, 2)]
    zeroed := false }

/-- src/Crypto/Pkcs11/Types/Structs/CamelliaCtrParams.cpp 36 -/
def sCamelliaCtrParams : Rec :=
  { name := "CamelliaCtrParams"
    fields := ["ulCounterBits", "cb"]
    assigns := [(0, 0), (1, 1)]
    params := [0, 1]
    ctor := [(0, 0), (1, 1)]
    zeroed := false }

/-- src/Crypto/Pkcs11/Types/Structs/CcmMessageParams.cpp 45 -/
def sCcmMessageParams : Rec :=
  { name := "CcmMessageParams"
    fields := ["ulDataLen", "pNonce", "ulNonceLen", "ulNonceFixedBits", "nonceGenerator", "pMAC", "ulMACLen"]
    assigns := [(0, 0), (1, 1), (2, 2), (3, 3), (4, 4), (5, 5), (6, 6)]
    params := [0, 1, 2, 3, 4, 5, 6]
    ctor := [(0, 0), (1, 1), (2, 2), (3, 3), (4, 4), (5, 5), (6, 6)]
    zeroed := false }

/-- src/Crypto/Pkcs11/Types/Structs/CcmParams.cpp 43 -/
def sCcmParams : Rec :=
  { name := "CcmParams"
    fields := ["ulDataLen", "pNonce", "ulNonceLen", "pAAD", "ulAADLen", "ulMACLen"]
    assigns := [(0, 0), (1, 1), (2, 2), (3, 3), (4, 4), (5, 5)]
    params := [0, 1, 2, 3, 4, 5]
    ctor := [(0, 0), (1, 1), (2, 2), (3, 3), (4, 4), (5, 5)]
    zeroed := false }

/-- src/Crypto/Pkcs11/Types/Structs/ChaCha20Params.cpp 39 -/
def sChaCha20Params : Rec :=
  { name := "ChaCha20Params"
    fields := ["pBlockCounter", "blockCounterBits", "pNonce", "ulNonceBits"]
    assigns := [(0, 0), (1, 1), (2, 2), (3, 3)]
    params := [0, 1, 2, 3]
    ctor := [(0, 0), (1, 1), (2, 2), (3, 3)]
    zeroed := false }

/-- src/Crypto/Pkcs11/Types/Structs/CmsSigParams.cpp 47 -/
def sCmsSigParams : Rec :=
  { name := "CmsSigParams"
    fields := ["certificateHandle", "pSigningMechanism", "pDigestMechanism", "pContentType", "pRequestedAttributes", "ulRequestedAttributesLen", "pRequiredAttributes", "ulRequiredAttributesLen"]
    assigns := [(0, 0), (1, 1), (2, 2), (3, 3), (4, 4), (5, 5), (6, 6), (7, 7)]
    params := [0, 1, 2, 3, 4, 5, 6, 7]
    ctor := [(0, 0), (1, 1), (2, 2), (3, 3), (4, 4), (5, 5), (6, 6), (7, 7)]
    zeroed := false }

/-- src/Crypto/Pkcs11/Types/Structs/Date.cpp 38 -/
def sDate : Rec :=
  { name := "Date"
    fields := ["year", "month", "day"]
    assigns := [(0, 0), (1, 1), (2, 2)]
    params := [0, 1, 2]
    ctor := [(0, 0), (1, 1), (2, 2)]
    zeroed := true }

/-- src/Crypto/Pkcs11/Types/Structs/DerivedKey.cpp 37 -/
def sDerivedKey : Rec :=
  { name := "DerivedKey"
    fields := ["pTemplate", "ulAttributeCount", "phKey"]
    assigns := [(0, 0), (1, 1), (2, 2)]
    params := [0, 1, 2]
    ctor := [(0, 0), (1, 1), (2, 2)]
    zeroed := false }

/-- src/Crypto/Pkcs11/Types/Structs/DesCbcEncryptDataParams.cpp 42 -/
def sDesCbcEncryptDataParams : Rec :=
  { name := "DesCbcEncryptDataParams"
    fields := ["iv", "pData", "length"]
    assigns := [(0, 0), (1, 1), (2, 2)]
    params := [0, 1, 2]
    ctor := [(0, 0), (1, 1), (2, 2)]
    zeroed := false }

/-- src/Crypto/Pkcs11/Types/Structs/DoubleRatchetInitializeParams.cpp 51 -/
def sDoubleRatchetInitializeParams : Rec :=
  { name := "DoubleRatchetInitializeParams"
    fields := ["sk", "peer_public_prekey", "peer_public_identity", "own_public_identity", "bEncryptedHeader", "eCurve", "aeadMechanism", "kdfMechanism"]
    assigns := [(0, 0), (1, 1), (2, 2), (3, 3), (4, 4), (5, 5), (6, 6), (7, 7)]
    params := [0, 1, 2, 3, 4, 5, 6, 7]
    ctor := [(0, 0), (1, 1), (2, 2), (3, 3), (4, 4), (5, 5), (6, 6), (7, 7)]
    zeroed := false }

/-- src/Crypto/Pkcs11/Types/Structs/DoubleRatchetRespondParams.cpp 51 -/
def sDoubleRatchetRespondParams : Rec :=
  { name := "DoubleRatchetRespondParams"
    fields := ["sk", "own_prekey", "initiator_identity", "own_public_identity", "bEncryptedHeader", "eCurve", "aeadMechanism", "kdfMechanism"]
    assigns := [(0, 0), (1, 1), (2, 2), (3, 3), (4, 4), (5, 5), (6, 6), (7, 7)]
    params := [0, 1, 2, 3, 4, 5, 6, 7]
    ctor := [(0, 0), (1, 1), (2, 2), (3, 3), (4, 4), (5, 5), (6, 6), (7, 7)]
    zeroed := false }

/-- src/Crypto/Pkcs11/Types/Structs/DsaParameterGenParam.cpp 41 -/
def sDsaParameterGenParam : Rec :=
  { name := "DsaParameterGenParam"
    fields := ["hash", "pSeed", "ulSeedLen", "ulIndex"]
    assigns := [(0, 0), (1, 1), (2, 2), (3, 3)]
    params := [0, 1, 2, 3]
    ctor := [(0, 0), (1, 1), (2, 2), (3, 3)]
    zeroed := false }

/-- src/Crypto/Pkcs11/Types/Structs/EcDh1DeriveParams.cpp 43 -/
def sEcDh1DeriveParams : Rec :=
  { name := "EcDh1DeriveParams"
    fields := ["kdf", "ulSharedDataLen", "pSharedData", "ulPublicDataLen", "pPublicData"]
    assigns := [(0, 0), (1, 1), (2, 2), (3, 3), (4, 4)]
    params := [0, 1, 2, 3, 4]
    ctor := [(0, 0), (1, 1), (2, 2), (3, 3), (4, 4)]
    zeroed := true }

/-- src/Crypto/Pkcs11/Types/Structs/EcDh2DeriveParams.cpp 57 -/
def sEcDh2DeriveParams : Rec :=
  { name := "EcDh2DeriveParams"
    fields := ["kdf", "ulSharedDataLen", "pSharedData", "ulPublicDataLen", "pPublicData", "ulPrivateDataLen", "hPrivateData", "ulPublicDataLen2", "pPublicData2"]
    assigns := [(0, 0), (1, 1), (2, 2), (3, 3), (4, 4), (5, 5), (6, 6), (7, 7), (8, 8)]
    params := [0, 1, 2, 3, 4, 5, 6, 7, 8]
    ctor := [(0, 0), (1, 1), (2, 2), (3, 3), (4, 4), (5, 5), (6, 6), (7, 7), (8, 8)]
    zeroed := true }

/-- src/Crypto/Pkcs11/Types/Structs/EcMqvDeriveParams.cpp 53 -/
def sEcMqvDeriveParams : Rec :=
  { name := "EcMqvDeriveParams"
    fields := ["kdf", "ulSharedDataLen", "pSharedData", "ulPublicDataLen", "pPublicData", "ulPrivateDataLen", "hPrivateData", "ulPublicDataLen2", "pPublicData2", "publicKey"]
    assigns := [(0, 0), (1, 1), (2, 2), (3, 3), (4, 4), (5, 5), (6, 6), (7, 7), (8, 8), (9, 9)]
    params := [0, 1, 2, 3, 4, 5, 6, 7, 8, 9]
    ctor := [(0, 0), (1, 1), (2, 2), (3, 3), (4, 4), (5, 5), (6, 6), (7, 7), (8, 8), (9, 9)]
    zeroed := true }

/-- src/Crypto/Pkcs11/Types/Structs/EcdhAesKeyWrapParams.cpp 41 -/
def sEcdhAesKeyWrapParams : Rec :=
  { name := "EcdhAesKeyWrapParams"
    fields := ["ulAESKeyBits", "kdf", "ulSharedDataLen", "pSharedData"]
    assigns := [(0, 0), (1, 1), (2, 2), (3, 3)]
    params := [0, 1, 2, 3]
    ctor := [(0, 0), (1, 1), (2, 2), (3, 3)]
    zeroed := false }

/-- src/Crypto/Pkcs11/Types/Structs/EdDsaParams.cpp 37 -/
def sEdDsaParams : Rec :=
  { name := "EdDsaParams"
    fields := ["phFlag", "ulContextDataLen", "pContextData"]
    assigns := [(0, 0), (1, 1), (2, 2)]
    params := [0, 1, 2]
    ctor := [(0, 0), (1, 1), (2, 2)]
    zeroed := false }

/-- src/Crypto/Pkcs11/Types/Structs/ExtendedEdDsaParams.cpp 33 -/
def sExtendedEdDsaParams : Rec :=
  { name := "ExtendedEdDsaParams"
    fields := ["hash"]
    assigns := [(0, 0)]
    params := [0]
    ctor := [(0, 0)]
    zeroed := false }

/-- src/Crypto/Pkcs11/Types/Structs/ExtendedTripleDiffieHellmanInitiateParams.cpp 49 -/
def sExtendedTripleDiffieHellmanInitiateParams : Rec :=
  { name := "ExtendedTripleDiffieHellmanInitiateParams"
    fields := ["kdf", "pPeer_identity", "pPeer_prekey", "pPrekey_signature", "pOnetime_key", "pOwn_identity", "pOwn_ephemeral"]
    assigns := [(0, 0), (1, 1), (2, 2), (3, 3), (4, 4), (5, 5), (6, 6)]
    params := [0, 1, 2, 3, 4, 5, 6]
    ctor := [(0, 0), (1, 1), (2, 2), (3, 3), (4, 4), (5, 5), (6, 6)]
    zeroed := false }

/-- src/Crypto/Pkcs11/Types/Structs/ExtendedTripleDiffieHellmanRespondParams.cpp 49 -/
def sExtendedTripleDiffieHellmanRespondParams : Rec :=
  { name := "ExtendedTripleDiffieHellmanRespondParams"
    fields := ["kdf", "pIdentity_id", "pPrekey_id", "pOnetime_id", "pInitiator_identity", "pInitiator_ephemeral"]
    assigns := [(0, 0), (1, 1), (2, 2), (3, 3), (4, 4), (5, 5)]
    params := [0, 1, 2, 3, 4, 5]
    ctor := [(0, 0), (1, 1), (2, 2), (3, 3), (4, 4), (5, 5)]
    zeroed := false }

/-- src/Crypto/Pkcs11/Types/Structs/FunctionList.cpp 171 -/
def sFunctionList : Rec :=
  { name := "FunctionList"
    fields := ["version", "C_Initialize", "C_Finalize", "C_GetInfo", "C_GetFunctionList", "C_GetSlotList", "C_GetSlotInfo", "C_GetTokenInfo", "C_GetMechanismList", "C_GetMechanismInfo", "C_InitToken", "C_InitPIN", "C_SetPIN", "C_OpenSession", "C_CloseSession", "C_CloseAllSessions", "C_GetSessionInfo", "C_GetOperationState", "C_SetOperationState", "C_Login", "C_Logout", "C_CreateObject", "C_CopyObject", "C_DestroyObject", "C_GetObjectSize", "C_GetAttributeValue", "C_SetAttributeValue", "C_FindObjectsInit", "C_FindObjects", "C_FindObjectsFinal", "C_EncryptInit", "C_Encrypt", "C_EncryptUpdate", "C_EncryptFinal", "C_DecryptInit", "C_Decrypt", "C_DecryptUpdate", "C_DecryptFinal", "C_DigestInit", "C_Digest", "C_DigestUpdate", "C_DigestKey", "C_DigestFinal", "C_SignInit", "C_Sign", "C_SignUpdate", "C_SignFinal", "C_SignRecoverInit", "C_SignRecover", "C_VerifyInit", "C_Verify", "C_VerifyUpdate", "C_VerifyFinal", "C_VerifyRecoverInit", "C_VerifyRecover", "C_DigestEncryptUpdate", "C_DecryptDigestUpdate", "C_SignEncryptUpdate", "C_DecryptVerifyUpdate", "C_GenerateKey", "C_GenerateKeyPair", "C_WrapKey", "C_UnwrapKey", "C_DeriveKey", "C_SeedRandom", "C_GenerateRandom", "C_GetFunctionStatus", "C_CancelFunction", "C_WaitForSlotEvent"]
    assigns := [(0, 0), (1, 1), (2, 2), (3, 3), (4, 4), (5, 5), (6, 6), (7, 7), (8, 8), (9, 9), (10, 10), (11, 11), (12, 12), (13, 13), (14, 14), (15, 15), (16, 16), (17, 17), (18, 18), (19, 19), (20, 20), (21, 21), (22, 22), (23, 23), (24, 24), (25, 25), (26, 26), (27, 27), (28, 28), (29, 29), (30, 30), (31, 31), (32, 32), (33, 33), (34, 34), (35, 35), (36, 36), (37, 37), (38, 38), (39, 39), (40, 40), (41, 41), (42, 42), (43, 43), (44, 44), (45, 45), (46, 46), (47, 47), (48, 48), (49, 49), (50, 50), (51, 51), (52, 52), (53, 53), (54, 54), (55, 55), (56, 56), (57, 57), (58, 58), (59, 59), (60, 60), (61, 61), (62, 62), (63, 63), (64, 64), (65, 65), (66, 66), (67, 67), (68, 68)]
    params := [0, 1, 2, 3, 4, 5, 6, 7, 8, 9, 10, 11, 12, 13, 14, 15, 16, 17, 18, 19, 20, 21, 22, 23, 24, 25, 26, 27, 28, 29, 30, 31, 32, 33, 34, 35, 36, 37, 38, 39, 40, 41, 42, 43, 44, 45, 46, 47, 48, 49, 50, 51, 52, 53, 54, 55, 56, 57, 58, 59, 60, 61, 62, 63, 64, 65, 66, 67, 68]
    ctor := [(0, 0), (1, 1), (2, 2), (3, 3), (4, 4), (5, 5), (6, 6), (7, 7), (8, 8), (9, 9), (10, 10), (11, 11), (12, 12), (13, 13), (14, 14), (15, 15), (16, 16), (17, 17), (18, 18), (19, 19), (20, 20), (21, 21), (22, 22), (23, 23), (24, 24), (25, 25), (26, 26), (27, 27), (28, 28), (29, 29), (30, 30), (31, 31), (32, 32), (33, 33), (34, 34), (35, 35), (36, 36), (37, 37), (38, 38), (39, 39), (40, 40), (41, 41), (42, 42), (43, 43), (44, 44), (45, 45), (46, 46), (47, 47), (48, 48), (49, 49), (50, 50), (51, 51), (52, 52), (53, 53), (54, 54), (55, 55), (56, 56), (57, 57), (58, 58), (59, 59), (60, 60), (61, 61), (62, 62), (63, 63), (64, 64), (65, 65), (66, 66), (67, 67), (68, 68)]
    zeroed := true }

/-- src/Crypto/Pkcs11/Types/Structs/FunctionList3.cpp 219 -/
def sFunctionList3 : Rec :=
  { name := "FunctionList3"
    fields := ["version", "C_Initialize", "C_Finalize", "C_GetInfo", "C_GetFunctionList", "C_GetSlotList", "C_GetSlotInfo", "C_GetTokenInfo", "C_GetMechanismList", "C_GetMechanismInfo", "C_InitToken", "C_InitPIN", "C_SetPIN", "C_OpenSession", "C_CloseSession", "C_CloseAllSessions", "C_GetSessionInfo", "C_GetOperationState", "C_SetOperationState", "C_Login", "C_Logout", "C_CreateObject", "C_CopyObject", "C_DestroyObject", "C_GetObjectSize", "C_GetAttributeValue", "C_SetAttributeValue", "C_FindObjectsInit", "C_FindObjects", "C_FindObjectsFinal", "C_EncryptInit", "C_Encrypt", "C_EncryptUpdate", "C_EncryptFinal", "C_DecryptInit", "C_Decrypt", "C_DecryptUpdate", "C_DecryptFinal", "C_DigestInit", "C_Digest", "C_DigestUpdate", "C_DigestKey", "C_DigestFinal", "C_SignInit", "C_Sign", "C_SignUpdate", "C_SignFinal", "C_SignRecoverInit", "C_SignRecover", "C_VerifyInit", "C_Verify", "C_VerifyUpdate", "C_VerifyFinal", "C_VerifyRecoverInit", "C_VerifyRecover", "C_DigestEncryptUpdate", "C_DecryptDigestUpdate", "C_SignEncryptUpdate", "C_DecryptVerifyUpdate", "C_GenerateKey", "C_GenerateKeyPair", "C_WrapKey", "C_UnwrapKey", "C_DeriveKey", "C_SeedRandom", "C_GenerateRandom", "C_GetFunctionStatus", "C_CancelFunction", "C_WaitForSlotEvent", "C_GetInterfaceList", "C_GetInterface", "C_LoginUser", "C_SessionCancel", "C_MessageEncryptInit", "C_EncryptMessage", "C_EncryptMessageBegin", "C_EncryptMessageNext", "C_MessageEncryptFinal", "C_MessageDecryptInit", "C_DecryptMessage", "C_DecryptMessageBegin", "C_DecryptMessageNext", "C_MessageDecryptFinal", "C_MessageSignInit", "C_SignMessage", "C_SignMessageBegin", "C_SignMessageNext", "C_MessageSignFinal", "C_MessageVerifyInit", "C_VerifyMessage", "C_VerifyMessageBegin", "C_VerifyMessageNext", "C_MessageVerifyFinal"]
    assigns := [(0, 0), (1, 1), (2, 2), (3, 3), (4, 4), (5, 5), (6, 6), (7, 7), (8, 8), (9, 9), (10, 10), (11, 11), (12, 12), (13, 13), (14, 14), (15, 15), (16, 16), (17, 17), (18, 18), (19, 19), (20, 20), (21, 21), (22, 22), (23, 23), (24, 24), (25, 25), (26, 26), (27, 27), (28, 28), (29, 29), (30, 30), (31, 31), (32, 32), (33, 33), (34, 34), (35, 35), (36, 36), (37, 37), (38, 38), (39, 39), (40, 40), (41, 41), (42, 42), (43, 43), (44, 44), (45, 45), (46, 46), (47, 47), (48, 48), (49, 49), (50, 50), (51, 51), (52, 52), (53, 53), (54, 54), (55, 55), (56, 56), (57, 57), (58, 58), (59, 59), (60, 60), (61, 61), (62, 62), (63, 63), (64, 64), (65, 65), (66, 66), (67, 67), (68, 68), (69, 69), (70, 70), (71, 71), (72, 72), (73, 73), (74, 74), (75, 75), (76, 76), (77, 77), (79, 79), (80, 80), (81, 81), (82, 82), (83, 83), (84, 84), (85, 85), (86, 86), (87, 87), (88, 88), (89, 89), (90, 90), (91, 91), (92, 92)]
    params := [0, 1, 2, 3, 4, 5, 6, 7, 8, 9, 10, 11, 12, 13, 14, 15, 16, 17, 18, 19, 20, 21, 22, 23, 24, 25, 26, 27, 28, 29, 30, 31, 32, 33, 34, 35, 36, 37, 38, 39, 40, 41, 42, 43, 44, 45, 46, 47, 48, 49, 50, 51, 52, 53, 54, 55, 56, 57, 58, 59, 60, 61, 62, 63, 64, 65, 66, 67, 68, 69, 70, 71, 72, 73, 74, 75, 76, 77, 78, 79, 80, 81, 82, 83, 84, 85, 86, 87, 88, 89, 90, 91, 92]
    ctor := [(0, 0), (1, 1), (2, 2), (3, 3), (4, 4), (5, 5), (6, 6), (7, 7), (8, 8), (9, 9), (10, 10), (11, 11), (12, 12), (13, 13), (14, 14), (15, 15), (16, 16), (17, 17), (18, 18), (19, 19), (20, 20), (21, 21), (22, 22), (23, 23), (24, 24), (25, 25), (26, 26), (27, 27), (28, 28), (29, 29), (30, 30), (31, 31), (32, 32), (33, 33), (34, 34), (35, 35), (36, 36), (37, 37), (38, 38), (39, 39), (40, 40), (41, 41), (42, 42), (43, 43), (44, 44), (45, 45), (46, 46), (47, 47), (48, 48), (49, 49), (50, 50), (51, 51), (52, 52), (53, 53), (54, 54), (55, 55), (56, 56), (57, 57), (58, 58), (59, 59), (60, 60), (61, 61), (62, 62), (63, 63), (64, 64), (65, 65), (66, 66), (67, 67), (68, 68), (69, 69), (70, 70), (71, 71), (72, 72), (73, 73), (74, 74), (75, 75), (76, 76), (77, 77), (78, 78), (79, 79), (80, 80), (81, 81), (82, 82), (83, 83), (84, 84), (85, 85), (86, 86), (87, 87), (88, 88), (89, 89), (90, 90), (91, 91), (92, 92)]
    zeroed := true }

/-- src/Crypto/Pkcs11/Types/Structs/GcmMessageParams.cpp 43 -/
def sGcmMessageParams : Rec :=
  { name := "GcmMessageParams"
    fields := ["pIv", "ulIvLen", "ulIvFixedBits", "ivGenerator", "pTag", "ulTagBits"]
    assigns := [(0, 0), (1, 1), (2, 2), (3, 3), (4, 4), (5, 5)]
    params := [0, 1, 2, 3, 4, 5]
    ctor := [(0, 0), (1, 1), (2, 2), (3, 3), (4, 4), (5, 5)]
    zeroed := false }

/-- src/Crypto/Pkcs11/Types/Structs/GcmParams.cpp 43 -/
def sGcmParams : Rec :=
  { name := "GcmParams"
    fields := ["pIv", "ulIvLen", "ulIvBits", "pAAD", "ulAADLen", "ulTagBits"]
    assigns := [(0, 0), (1, 1), (2, 2), (3, 3), (4, 4), (5, 5)]
    params := [0, 1, 2, 3, 4, 5]
    ctor := [(0, 0), (1, 1), (2, 2), (3, 3), (4, 4), (5, 5)]
    zeroed := false }

/-- src/Crypto/Pkcs11/Types/Structs/Gostr3410DeriveParams.cpp 43 -/
def sGostr3410DeriveParams : Rec :=
  { name := "Gostr3410DeriveParams"
    fields := ["kdf", "pPublicData", "ulPublicDataLen", "pUKM", "ulUKMLen"]
    assigns := [(0, 0), (1, 1), (2, 2), (3, 3), (4, 4)]
    params := [0, 1, 2, 3, 4]
    ctor := [(0, 0), (1, 1), (2, 2), (3, 3), (4, 4)]
    zeroed := false }

/-- src/Crypto/Pkcs11/Types/Structs/Gostr3410KeyWrapParams.cpp 43 -/
def sGostr3410KeyWrapParams : Rec :=
  { name := "Gostr3410KeyWrapParams"
    fields := ["pWrapOID", "ulWrapOIDLen", "pUKM", "ulUKMLen", "hKey"]
    assigns := [(0, 0), (1, 1), (2, 2), (3, 3), (4, 4)]
    params := [0, 1, 2, 3, 4]
    ctor := [(0, 0), (1, 1), (2, 2), (3, 3), (4, 4)]
    zeroed := false }

/-- src/Crypto/Pkcs11/Types/Structs/HkdfParams.cpp 49 -/
def sHkdfParams : Rec :=
  { name := "HkdfParams"
    fields := ["bExtract", "bExpand", "prfHashMechanism", "ulSaltType", "pSalt", "ulSaltLen", "hSaltKey", "pInfo", "ulInfoLen"]
    assigns := [(0, 0), (1, 1), (2, 2), (3, 3), (4, 4), (5, 5), (6, 6), (7, 7), (8, 8)]
    params := [0, 1, 2, 3, 4, 5, 6, 7, 8]
    ctor := [(0, 0), (1, 1), (2, 2), (3, 3), (4, 4), (5, 5), (6, 6), (7, 7), (8, 8)]
    zeroed := false }

/-- src/Crypto/Pkcs11/Types/Structs/Info.cpp 42 -/
def sInfo : Rec :=
  { name := "Info"
    fields := ["cryptokiVersion", "manufacturerID", "flags", "libraryDescription", "libraryVersion"]
    assigns := [(0, 0), (1, 1), (2, 2), (3, 3), (4, 4)]
    params := [0, 1, 2, 3, 4]
    ctor := [(0, 0), (1, 1), (2, 2), (3, 3), (4, 4)]
    zeroed := true }

/-- src/Crypto/Pkcs11/Types/Structs/InitializeArgs.cpp 44 -/
def sInitializeArgs : Rec :=
  { name := "InitializeArgs"
    fields := ["CreateMutex", "DestroyMutex", "LockMutex", "UnlockMutex", "flags", "pReserved"]
    assigns := [(0, 0), (1, 1), (2, 2), (3, 3), (4, 4), (5, 5)]
    params := [0, 1, 2, 3, 4, 5]
    ctor := [(0, 0), (1, 1), (2, 2), (3, 3), (4, 4), (5, 5)]
    zeroed := true }

/-- src/Crypto/Pkcs11/Types/Structs/Interface.cpp 38 -/
def sInterface : Rec :=
  { name := "Interface"
    fields := ["pInterfaceName", "pFunctionList", "flags"]
    assigns := [(0, 0), (1, 1), (2, 2)]
    params := [0, 1, 2]
    ctor := [(0, 0), (1, 1), (2, 2)]
    zeroed := true }

/-- src/Crypto/Pkcs11/Types/Structs/KeaDeriveParams.cpp 44 -/
def sKeaDeriveParams : Rec :=
  { name := "KeaDeriveParams"
    fields := ["isSender", "ulRandomLen", "pRandomA", "pRandomB", "ulPublicDataLen", "pPublicData"]
    assigns := [(0, 0), (1, 1), (2, 2), (3, 3), (4, 4), (5, 5)]
    params := [0, 1, 2, 3, 4, 5]
    ctor := [(0, 0), (1, 1), (2, 2), (3, 3), (4, 4), (5, 5)]
    zeroed := false }

/-- src/Crypto/Pkcs11/Types/Structs/KeyDerivationStringData.cpp 39 -/
def sKeyDerivationStringData : Rec :=
  { name := "KeyDerivationStringData"
    fields := ["pData", "ulLen"]
    assigns := [(0, 0), (1, 1)]
    params := [0, 1]
    ctor := [(0, 0), (1, 1)]
    zeroed := false }

/-- src/Crypto/Pkcs11/Types/Structs/KeyWrapSetOaepParams.cpp 37 -/
def sKeyWrapSetOaepParams : Rec :=
  { name := "KeyWrapSetOaepParams"
    fields := ["bBC", "pX", "ulXLen"]
    assigns := [(0, 0), (1, 1), (2, 2)]
    params := [0, 1, 2]
    ctor := [(0, 0), (1, 1), (2, 2)]
    zeroed := false }

/-- src/Crypto/Pkcs11/Types/Structs/KipParams.cpp 39 -/
def sKipParams : Rec :=
  { name := "KipParams"
    fields := ["pMechanism", "hKey", "pSeed", "ulSeedLen"]
    assigns := [(0, 0), (1, 1), (2, 2), (3, 3)]
    params := [0, 1, 2, 3]
    ctor := [(0, 0), (1, 1), (2, 2), (3, 3)]
    zeroed := false }

/-- src/Crypto/Pkcs11/Types/Structs/Mechanism.cpp 37 -/
def sMechanism : Rec :=
  { name := "Mechanism"
    fields := ["mechanism", "pParameter", "ulParameterLen"]
    assigns := [(0, 0), (1, 1), (2, 2)]
    params := [0, 1, 2]
    ctor := [(0, 0), (1, 1), (2, 2)]
    zeroed := true }

/-- src/Crypto/Pkcs11/Types/Structs/MechanismInfo.cpp 37 -/
def sMechanismInfo : Rec :=
  { name := "MechanismInfo"
    fields := ["ulMinKeySize", "ulMaxKeySize", "flags"]
    assigns := [(0, 0), (1, 1), (2, 2)]
    params := [0, 1, 2]
    ctor := [(0, 0), (1, 1), (2, 2)]
    zeroed := true }

/-- src/Crypto/Pkcs11/Types/Structs/NistSp800Hyphen108CounterFormat.cpp 39 -/
def sNistSp800Hyphen108CounterFormat : Rec :=
  { name := "NistSp800Hyphen108CounterFormat"
    fields := ["bLittleEndian", "ulWidthInBits"]
    assigns := [(0, 0), (1, 1)]
    params := [0, 1]
    ctor := [(0, 0), (1, 1)]
    zeroed := false }

/-- src/Crypto/Pkcs11/Types/Structs/NistSp800Hyphen108DkmLengthFormat.cpp 43 -/
def sNistSp800Hyphen108DkmLengthFormat : Rec :=
  { name := "NistSp800Hyphen108DkmLengthFormat"
    fields := ["dkmLengthMethod", "bLittleEndian", "ulWidthInBits"]
    assigns := [(0, 0), (1, 1), (2, 2)]
    params := [2, 1, 0]
    ctor := [(2, 0), (1, 1), (0, 2)]
    zeroed := false }

/-- src/Crypto/Pkcs11/Types/Structs/NistSp800Hyphen108FeedbackKdfParams.cpp 51 -/
def sNistSp800Hyphen108FeedbackKdfParams : Rec :=
  { name := "NistSp800Hyphen108FeedbackKdfParams"
    fields := ["prfType", "ulNumberOfDataParams", "pDataParams", "ulIVLen", "pIV", "ulAdditionalDerivedKeys", "pAdditionalDerivedKeys"]
    assigns := [(0, 0), (1, 1), (2, 2), (3, 3), (4, 4), (5, 5), (6, 6)]
    params := [0, 1, 2, 3, 4, 5, 6]
    ctor := [(0, 0), (1, 1), (2, 2), (3, 3), (4, 4), (5, 5), (6, 6)]
    zeroed := false }

/-- src/Crypto/Pkcs11/Types/Structs/NistSp800Hyphen108KdfParams.cpp 43 -/
def sNistSp800Hyphen108KdfParams : Rec :=
  { name := "NistSp800Hyphen108KdfParams"
    fields := ["prfType", "ulNumberOfDataParams", "pDataParams", "ulAdditionalDerivedKeys", "pAdditionalDerivedKeys"]
    assigns := [(1, 1), (2, 2), (3, 3), (4, 4)]
    params := [4, 3, 2, 1]
    ctor := [(4, 0), (3, 1), (2, 2), (1, 3)]
    zeroed := false }

/-- src/Crypto/Pkcs11/Types/Structs/OtpParam.cpp 37 -/
def sOtpParam : Rec :=
  { name := "OtpParam"
    fields := ["type", "pValue", "ulValueLen"]
    assigns := [(0, 0), (1, 1), (2, 2)]
    params := [0, 1, 2]
    ctor := [(0, 0), (1, 1), (2, 2)]
    zeroed := false }

/-- src/Crypto/Pkcs11/Types/Structs/OtpParams.cpp 35 -/
def sOtpParams : Rec :=
  { name := "OtpParams"
    fields := ["pParams", "ulCount"]
    assigns := [(0, 0), (1, 1)]
    params := [0, 1]
    ctor := [(0, 0), (1, 1)]
    zeroed := false }

/-- src/Crypto/Pkcs11/Types/Structs/OtpSignatureInfo.cpp 35 -/
def sOtpSignatureInfo : Rec :=
  { name := "OtpSignatureInfo"
    fields := ["pParams", "ulCount"]
    assigns := [(0, 0), (1, 1)]
    params := [0, 1]
    ctor := [(0, 0), (1, 1)]
    zeroed := false }

/-- src/Crypto/Pkcs11/Types/Structs/PbeParams.cpp 43 -/
def sPbeParams : Rec :=
  { name := "PbeParams"
    fields := ["pInitVector", "pPassword", "ulPasswordLen", "pSalt", "ulSaltLen", "ulIteration"]
    assigns := [(0, 0), (1, 1), (2, 2), (3, 3), (4, 4), (5, 5)]
    params := [0, 1, 2, 3, 4, 5]
    ctor := [(0, 0), (1, 1), (2, 2), (3, 3), (4, 4), (5, 5)]
    zeroed := false }

/-- src/Crypto/Pkcs11/Types/Structs/Pkcs5Pbkd2Params.cpp 49 -/
def sPkcs5Pbkd2Params : Rec :=
  { name := "Pkcs5Pbkd2Params"
    fields := ["saltSource", "pSaltSourceData", "ulSaltSourceDataLen", "iterations", "prf", "pPrfData", "ulPrfDataLen", "pPassword", "ulPasswordLen"]
    assigns := [(0, 0), (1, 1), (2, 2), (3, 3), (4, 4), (5, 5), (6, 6), (7, 7), (8, 8)]
    params := [0, 1, 2, 3, 4, 5, 6, 7, 8]
    ctor := [(0, 0), (1, 1), (2, 2), (3, 3), (4, 4), (5, 5), (6, 6), (7, 7), (8, 8)]
    zeroed := false }

/-- src/Crypto/Pkcs11/Types/Structs/Pkcs5Pbkd2Params2.cpp 49 -/
def sPkcs5Pbkd2Params2 : Rec :=
  { name := "Pkcs5Pbkd2Params2"
    fields := ["saltSource", "pSaltSourceData", "ulSaltSourceDataLen", "iterations", "prf", "pPrfData", "ulPrfDataLen", "pPassword", "ulPasswordLen"]
    assigns := [(0, 0), (1, 1), (2, 2), (3, 3), (4, 4), (5, 5), (6, 6), (7, 7), (8, 8)]
    params := [0, 1, 2, 3, 4, 5, 6, 7, 8]
    ctor := [(0, 0), (1, 1), (2, 2), (3, 3), (4, 4), (5, 5), (6, 6), (7, 7), (8, 8)]
    zeroed := false }

/-- src/Crypto/Pkcs11/Types/Structs/PrfDataParam.cpp 37 -/
def sPrfDataParam : Rec :=
  { name := "PrfDataParam"
    fields := ["type", "pValue", "ulValueLen"]
    assigns := [(0, 0), (1, 1), (2, 2)]
    params := [0, 1, 2]
    ctor := [(0, 0), (1, 1), (2, 2)]
    zeroed := false }

/-- src/Crypto/Pkcs11/Types/Structs/Rc2CbcParams.cpp 36 -/
def sRc2CbcParams : Rec :=
  { name := "Rc2CbcParams"
    fields := ["ulEffectiveBits", "iv"]
    assigns := [(0, 0), (1, 1)]
    params := [0, 1]
    ctor := [(0, 0), (1, 1)]
    zeroed := false }

/-- src/Crypto/Pkcs11/Types/Structs/Rc2MacGeneralParams.cpp 35 -/
def sRc2MacGeneralParams : Rec :=
  { name := "Rc2MacGeneralParams"
    fields := ["ulEffectiveBits", "ulMacLength"]
    assigns := [(0, 0), (1, 1)]
    params := [0, 1]
    ctor := [(0, 0), (1, 1)]
    zeroed := false }

/-- src/Crypto/Pkcs11/Types/Structs/Rc5CbcParams.cpp 39 -/
def sRc5CbcParams : Rec :=
  { name := "Rc5CbcParams"
    fields := ["ulWordsize", "ulRounds", "pIv", "ulIvLen"]
    assigns := [(0, 0), (1, 1), (2, 2), (3, 3)]
    params := [0, 1, 2, 3]
    ctor := [(0, 0), (1, 1), (2, 2), (3, 3)]
    zeroed := false }

/-- src/Crypto/Pkcs11/Types/Structs/Rc5MacGeneralParams.cpp 37 -/
def sRc5MacGeneralParams : Rec :=
  { name := "Rc5MacGeneralParams"
    fields := ["ulWordsize", "ulRounds", "ulMacLength"]
    assigns := [(0, 0), (1, 1), (2, 2)]
    params := [0, 1, 2]
    ctor := [(0, 0), (1, 1), (2, 2)]
    zeroed := false }

/-- src/Crypto/Pkcs11/Types/Structs/Rc5Params.cpp 35 -/
def sRc5Params : Rec :=
  { name := "Rc5Params"
    fields := ["ulWordsize", "ulRounds"]
    assigns := [(0, 0), (1, 1)]
    params := [0, 1]
    ctor := [(0, 0), (1, 1)]
    zeroed := false }

/-- src/Crypto/Pkcs11/Types/Structs/RsaAesKeyWrapParams.cpp 35 -/
def sRsaAesKeyWrapParams : Rec :=
  { name := "RsaAesKeyWrapParams"
    fields := ["ulAESKeyBits", "pOAEPParams"]
    assigns := [(0, 0), (1, 1)]
    params := [0, 1]
    ctor := [(0, 0), (1, 1)]
    zeroed := false }

/-- src/Crypto/Pkcs11/Types/Structs/RsaPkcsOaepParams.cpp 43 -/
def sRsaPkcsOaepParams : Rec :=
  { name := "RsaPkcsOaepParams"
    fields := ["hashAlg", "mgf", "source", "pSourceData", "ulSourceDataLen"]
    assigns := [(0, 0), (1, 1), (2, 2), (3, 3), (4, 4)]
    params := [0, 1, 2, 3, 4]
    ctor := [(0, 0), (1, 1), (2, 2), (3, 3), (4, 4)]
    zeroed := true }

/-- src/Crypto/Pkcs11/Types/Structs/RsaPkcsPssParams.cpp 39 -/
def sRsaPkcsPssParams : Rec :=
  { name := "RsaPkcsPssParams"
    fields := ["hashAlg", "mgf", "sLen"]
    assigns := [(0, 0), (1, 1), (2, 2)]
    params := [0, 1, 2]
    ctor := [(0, 0), (1, 1), (2, 2)]
    zeroed := true }

/-- src/Crypto/Pkcs11/Types/Structs/Salsa20ChaCha20Poly1305MessageParams.cpp 41 -/
def sSalsa20ChaCha20Poly1305MessageParams : Rec :=
  { name := "Salsa20ChaCha20Poly1305MessageParams"
    fields := ["pNonce", "ulNonceLen", "pTag"]
    assigns := [(0, 0), (1, 1), (2, 2)]
    params := [0, 1, 2]
    ctor := [(0, 0), (1, 1), (2, 2)]
    zeroed := false }

/-- src/Crypto/Pkcs11/Types/Structs/Salsa20ChaCha20Poly1305Params.cpp 43 -/
def sSalsa20ChaCha20Poly1305Params : Rec :=
  { name := "Salsa20ChaCha20Poly1305Params"
    fields := ["pNonce", "ulNonceLen", "pAAD", "ulAADLen"]
    assigns := [(0, 0), (1, 1), (2, 2), (3, 3)]
    params := [0, 1, 2, 3]
    ctor := [(0, 0), (1, 1), (2, 2), (3, 3)]
    zeroed := false }

/-- src/Crypto/Pkcs11/Types/Structs/Salsa20Params.cpp 37 -/
def sSalsa20Params : Rec :=
  { name := "Salsa20Params"
    fields := ["pBlockCounter", "pNonce", "ulNonceBits"]
    assigns := [(0, 0), (1, 1), (2, 2)]
    params := [0, 1, 2]
    ctor := [(0, 0), (1, 1), (2, 2)]
    zeroed := false }

/-- src/Crypto/Pkcs11/Types/Structs/SeedCbcEncryptDataParams.cpp 42 -/
def sSeedCbcEncryptDataParams : Rec :=
  { name := "SeedCbcEncryptDataParams"
    fields := ["iv", "pData", "length"]
    assigns := [(0, 0), (1, 1), (2, 2)]
    params := [0, 1, 2]
    ctor := [(0, 0), (1, 1), (2, 2)]
    zeroed := false }

/-- src/Crypto/Pkcs11/Types/Structs/SessionInfo.cpp 39 -/
def sSessionInfo : Rec :=
  { name := "SessionInfo"
    fields := ["slotID", "state", "flags", "ulDeviceError"]
    assigns := [(0, 0), (1, 1), (2, 2), (3, 3)]
    params := [0, 1, 2, 3]
    ctor := [(0, 0), (1, 1), (2, 2), (3, 3)]
    zeroed := true }

/-- src/Crypto/Pkcs11/Types/Structs/SkipjackPrivateWrapParams.cpp 57 -/
def sSkipjackPrivateWrapParams : Rec :=
  { name := "SkipjackPrivateWrapParams"
    fields := ["ulPasswordLen", "pPassword", "ulPublicDataLen", "pPublicData", "ulPAndGLen", "ulQLen", "ulRandomLen", "pRandomA", "pPrimeP", "pBaseG", "pSubprimeQ"]
    assigns := [(0, 0), (1, 1), (2, 2), (3, 3), (4, 4), (5, 5), (6, 6), (7, 7), (8, 8), (9, 9), (10, 10)]
    params := [0, 1, 2, 3, 4, 5, 6, 7, 8, 9, 10]
    ctor := [(0, 0), (1, 1), (2, 2), (3, 3), (4, 4), (5, 5), (6, 6), (7, 7), (8, 8), (9, 9), (10, 10)]
    zeroed := false }

/-- src/Crypto/Pkcs11/Types/Structs/SkipjackRelayxParams.cpp 59 -/
def sSkipjackRelayxParams : Rec :=
  { name := "SkipjackRelayxParams"
    fields := ["ulOldWrappedXLen", "pOldWrappedX", "ulOldPasswordLen", "pOldPassword", "ulOldPublicDataLen", "pOldPublicData", "ulOldRandomLen", "pOldRandomA", "ulNewPasswordLen", "pNewPassword", "ulNewPublicDataLen", "pNewPublicData", "ulNewRandomLen", "pNewRandomA"]
    assigns := [(0, 0), (1, 1), (2, 2), (3, 3), (4, 4), (5, 5), (6, 6), (7, 7), (8, 8), (9, 9), (10, 10), (11, 11), (12, 12), (13, 13)]
    params := [0, 1, 2, 3, 4, 5, 6, 7, 8, 9, 10, 11, 12, 13]
    ctor := [(0, 0), (1, 1), (2, 2), (3, 3), (4, 4), (5, 5), (6, 6), (7, 7), (8, 8), (9, 9), (10, 10), (11, 11), (12, 12), (13, 13)]
    zeroed := false }

/-- src/Crypto/Pkcs11/Types/Structs/SlotInfo.cpp 42 -/
def sSlotInfo : Rec :=
  { name := "SlotInfo"
    fields := ["slotDescription", "manufacturerID", "flags", "hardwareVersion", "firmwareVersion"]
    assigns := [(0, 0), (1, 1), (2, 2), (3, 3), (4, 4)]
    params := [0, 1, 2, 3, 4]
    ctor := [(0, 0), (1, 1), (2, 2), (3, 3), (4, 4)]
    zeroed := false }

/-- src/Crypto/Pkcs11/Types/Structs/Ssl3KeyMatOut.cpp 43 -/
def sSsl3KeyMatOut : Rec :=
  { name := "Ssl3KeyMatOut"
    fields := ["hClientMacSecret", "hServerMacSecret", "hClientKey", "hServerKey", "pIVClient", "pIVServer"]
    assigns := [(0, 0), (1, 1), (2, 2), (3, 3), (4, 4), (5, 5)]
    params := [0, 1, 2, 3, 4, 5]
    ctor := [(0, 0), (1, 1), (2, 2), (3, 3), (4, 4), (5, 5)]
    zeroed := false }

/-- src/Crypto/Pkcs11/Types/Structs/Ssl3KeyMatParams.cpp 43 -/
def sSsl3KeyMatParams : Rec :=
  { name := "Ssl3KeyMatParams"
    fields := ["ulMacSizeInBits", "ulKeySizeInBits", "ulIVSizeInBits", "bIsExport", "RandomInfo", "pReturnedKeyMaterial"]
    assigns := [(0, 0), (1, 1), (2, 2), (3, 3), (4, 4), (5, 5)]
    params := [0, 1, 2, 3, 4, 5]
    ctor := [(0, 0), (1, 1), (2, 2), (3, 3), (4, 4), (5, 5)]
    zeroed := false }

/-- src/Crypto/Pkcs11/Types/Structs/Ssl3MasterKeyDeriveParams.cpp 37 -/
def sSsl3MasterKeyDeriveParams : Rec :=
  { name := "Ssl3MasterKeyDeriveParams"
    fields := ["RandomInfo", "pVersion"]
    assigns := [(0, 0), (1, 1)]
    params := [0, 1]
    ctor := [(0, 0), (1, 1)]
    zeroed := false }

/-- src/Crypto/Pkcs11/Types/Structs/Ssl3RandomData.cpp 39 -/
def sSsl3RandomData : Rec :=
  { name := "Ssl3RandomData"
    fields := ["pClientRandom", "ulClientRandomLen", "pServerRandom", "ulServerRandomLen"]
    assigns := [(0, 0), (1, 1), (2, 2), (3, 3)]
    params := [3, 2, 1, 0]
    ctor := [(3, 0), (2, 1), (1, 2), (0, 3)]
    zeroed := false }

/-- src/Crypto/Pkcs11/Types/Structs/Tls12KeyMatParams.cpp 45 -/
def sTls12KeyMatParams : Rec :=
  { name := "Tls12KeyMatParams"
    fields := ["ulMacSizeInBits", "ulKeySizeInBits", "ulIVSizeInBits", "bIsExport", "RandomInfo", "pReturnedKeyMaterial", "prfHashMechanism"]
    assigns := [(0, 0), (1, 1), (2, 2), (3, 3), (4, 4), (5, 5), (6, 6)]
    params := [0, 1, 2, 3, 4, 5, 6]
    ctor := [(0, 0), (1, 1), (2, 2), (3, 3), (4, 4), (5, 5), (6, 6)]
    zeroed := false }

/-- src/Crypto/Pkcs11/Types/Structs/Tls12MasterKeyDeriveParams.cpp 41 -/
def sTls12MasterKeyDeriveParams : Rec :=
  { name := "Tls12MasterKeyDeriveParams"
    fields := ["RandomInfo", "pVersion", "prfHashMechanism"]
    assigns := [(0, 0), (1, 1), (2, 2)]
    params := [0, 1, 2]
    ctor := [(0, 0), (1, 1), (2, 2)]
    zeroed := false }

/-- src/Crypto/Pkcs11/Types/Structs/TlsKdfParams.cpp 43 -/
def sTlsKdfParams : Rec :=
  { name := "TlsKdfParams"
    fields := ["prfMechanism", "pLabel", "ulLabelLength", "RandomInfo", "pContextData", "ulContextDataLength"]
    assigns := [(0, 0), (1, 1), (2, 2), (3, 3), (4, 4), (5, 5)]
    params := [0, 1, 2, 3, 4, 5]
    ctor := [(0, 0), (1, 1), (2, 2), (3, 3), (4, 4), (5, 5)]
    zeroed := false }

/-- src/Crypto/Pkcs11/Types/Structs/TlsMacParams.cpp 37 -/
def sTlsMacParams : Rec :=
  { name := "TlsMacParams"
    fields := ["prfHashMechanism", "ulMacLength", "ulServerOrClient"]
    assigns := [(0, 0), (1, 1), (2, 2)]
    params := [0, 1, 2]
    ctor := [(0, 0), (1, 1), (2, 2)]
    zeroed := false }

/-- src/Crypto/Pkcs11/Types/Structs/TlsPrfParams.cpp 43 -/
def sTlsPrfParams : Rec :=
  { name := "TlsPrfParams"
    fields := ["pSeed", "ulSeedLen", "pLabel", "ulLabelLen", "pOutput", "pulOutputLen"]
    assigns := [(0, 0), (1, 1), (2, 2), (3, 3), (4, 4), (5, 5)]
    params := [0, 1, 2, 3, 4, 5]
    ctor := [(0, 0), (1, 1), (2, 2), (3, 3), (4, 4), (5, 5)]
    zeroed := false }

/-- src/Crypto/Pkcs11/Types/Structs/TokenInfo.cpp 69 -/
def sTokenInfo : Rec :=
  { name := "TokenInfo"
    fields := ["label", "manufacturerID", "model", "serialNumber", "flags", "ulMaxSessionCount", "ulSessionCount", "ulMaxRwSessionCount", "ulRwSessionCount", "ulMaxPinLen", "ulMinPinLen", "ulTotalPublicMemory", "ulFreePublicMemory", "ulTotalPrivateMemory", "ulFreePrivateMemory", "hardwareVersion", "firmwareVersion", "utcTime"]
    assigns := [(0, 0), (1, 1), (2, 2), (3, 3), (4, 4), (5, 5), (6, 6), (7, 7), (8, 8), (9, 9), (10, 10), (11, 11), (12, 12), (13, 13), (14, 14), (15, 15), (16, 16), (17, 17)]
    params := [0, 1, 2, 3, 4, 5, 6, 7, 8, 9, 10, 11, 12, 13, 14, 15, 16, 17]
    ctor := [(0, 0), (1, 1), (2, 2), (3, 3), (4, 4), (5, 5), (6, 6), (7, 7), (8, 8), (9, 9), (10, 10), (11, 11), (12, 12), (13, 13), (14, 14), (15, 15), (16, 16), (17, 17)]
    zeroed := true }

/-- src/Crypto/Pkcs11/Types/Structs/Version.cpp 35 -/
def sVersion : Rec :=
  { name := "Version"
    fields := ["major", "minor"]
    assigns := [(0, 0), (1, 1)]
    params := [0, 1]
    ctor := [(0, 0), (1, 1)]
    zeroed := true }

/-- src/Crypto/Pkcs11/Types/Structs/WtlsKeyMatOut.cpp 37 -/
def sWtlsKeyMatOut : Rec :=
  { name := "WtlsKeyMatOut"
    fields := ["hMacSecret", "hKey", "pIV"]
    assigns := [(0, 0), (1, 1), (2, 2)]
    params := [0, 1, 2]
    ctor := [(0, 0), (1, 1), (2, 2)]
    zeroed := false }

/-- src/Crypto/Pkcs11/Types/Structs/WtlsKeyMatParams.cpp 47 -/
def sWtlsKeyMatParams : Rec :=
  { name := "WtlsKeyMatParams"
    fields := ["DigestMechanism", "ulMacSizeInBits", "ulKeySizeInBits", "ulIVSizeInBits", "ulSequenceNumber", "bIsExport", "RandomInfo", "pReturnedKeyMaterial"]
    assigns := [(0, 0), (1, 1), (2, 2), (3, 3), (4, 4), (5, 5), (6, 6), (7, 7)]
    params := [0, 1, 2, 3, 4, 5, 6, 7]
    ctor := [(0, 0), (1, 1), (2, 2), (3, 3), (4, 4), (5, 5), (6, 6), (7, 7)]
    zeroed := false }

/-- src/Crypto/Pkcs11/Types/Structs/WtlsMasterKeyDeriveParams.cpp 45 -/
def sWtlsMasterKeyDeriveParams : Rec :=
  { name := "WtlsMasterKeyDeriveParams"
    fields := ["DigestMechanism", "RandomInfo", "pVersion"]
    assigns := [(0, 0), (1, 1), (2, 2)]
    params := [0, 1, 2]
    ctor := [(0, 0), (1, 1), (2, 2)]
    zeroed := false }

/-- src/Crypto/Pkcs11/Types/Structs/WtlsPrfParams.cpp 45 -/
def sWtlsPrfParams : Rec :=
  { name := "WtlsPrfParams"
    fields := ["DigestMechanism", "pSeed", "ulSeedLen", "pLabel", "ulLabelLen", "pOutput", "pulOutputLen"]
    assigns := [(0, 0), (1, 1), (2, 2), (3, 3), (4, 4), (5, 5), (6, 6)]
    params := [0, 1, 2, 3, 4, 5, 6]
    ctor := [(0, 0), (1, 1), (2, 2), (3, 3), (4, 4), (5, 5), (6, 6)]
    zeroed := false }

/-- src/Crypto/Pkcs11/Types/Structs/WtlsRandomData.cpp 39 -/
def sWtlsRandomData : Rec :=
  { name := "WtlsRandomData"
    fields := ["pClientRandom", "ulClientRandomLen", "pServerRandom", "ulServerRandomLen"]
    assigns := [(0, 0), (1, 1), (2, 2), (3, 3)]
    params := [0, 1, 2, 3]
    ctor := [(0, 0), (1, 1), (2, 2), (3, 3)]
    zeroed := false }

/-- src/Crypto/Pkcs11/Types/Structs/X9dot42DiffieHellman1DeriveParams.cpp 48 -/
def sX9dot42DiffieHellman1DeriveParams : Rec :=
  { name := "X9dot42DiffieHellman1DeriveParams"
    fields := ["kdf", "ulOtherInfoLen", "pOtherInfo", "ulPublicDataLen", "pPublicData"]
    assigns := [(0, 0), (1, 1), (2, 2), (3, 3), (4, 4)]
    params := [0, 1, 2, 3, 4]
    ctor := [(0, 0), (1, 1), (2, 2), (3, 3), (4, 4)]
    zeroed := false }

/-- src/Crypto/Pkcs11/Types/Structs/X9dot42DiffieHellman2DeriveParams.cpp 57 -/
def sX9dot42DiffieHellman2DeriveParams : Rec :=
  { name := "X9dot42DiffieHellman2DeriveParams"
    fields := ["kdf", "ulOtherInfoLen", "pOtherInfo", "ulPublicDataLen", "pPublicData", "ulPrivateDataLen", "hPrivateData", "ulPublicDataLen2", "pPublicData2"]
    assigns := [(0, 0), (1, 1), (2, 2), (3, 3), (4, 4), (5, 5), (6, 6), (7, 7), (8, 8)]
    params := [0, 1, 2, 3, 4, 5, 6, 7, 8]
    ctor := [(0, 0), (1, 1), (2, 2), (3, 3), (4, 4), (5, 5), (6, 6), (7, 7), (8, 8)]
    zeroed := true }

/-- src/Crypto/Pkcs11/Types/Structs/X9dot42MqvDeriveParams.cpp 55 -/
def sX9dot42MqvDeriveParams : Rec :=
  { name := "X9dot42MqvDeriveParams"
    fields := ["kdf", "ulOtherInfoLen", "pOtherInfo", "ulPublicDataLen", "pPublicData", "ulPrivateDataLen", "hPrivateData", "ulPublicDataLen2", "pPublicData2", "publicKey"]
    assigns := [(0, 0), (1, 1), (2, 2), (3, 3), (4, 4), (5, 5), (6, 6), (7, 7), (8, 8), (9, 9)]
    params := [0, 1, 2, 3, 4, 5, 6, 7, 8, 9]
    ctor := [(0, 0), (1, 1), (2, 2), (3, 3), (4, 4), (5, 5), (6, 6), (7, 7), (8, 8), (9, 9)]
    zeroed := true }

/-- All of them. -/
def table : List Rec :=
  [sAesCbcEncryptDataParams,
   sAesCtrParams,
   sAriaCbcEncryptDataParams,
   sAttribute,
   sCamelliaCbcEncryptDataParams,
   sCamelliaCtrParams,
   sCcmMessageParams,
   sCcmParams,
   sChaCha20Params,
   sCmsSigParams,
   sDate,
   sDerivedKey,
   sDesCbcEncryptDataParams,
   sDoubleRatchetInitializeParams,
   sDoubleRatchetRespondParams,
   sDsaParameterGenParam,
   sEcDh1DeriveParams,
   sEcDh2DeriveParams,
   sEcMqvDeriveParams,
   sEcdhAesKeyWrapParams,
   sEdDsaParams,
   sExtendedEdDsaParams,
   sExtendedTripleDiffieHellmanInitiateParams,
   sExtendedTripleDiffieHellmanRespondParams,
   sFunctionList,
   sFunctionList3,
   sGcmMessageParams,
   sGcmParams,
   sGostr3410DeriveParams,
   sGostr3410KeyWrapParams,
   sHkdfParams,
   sInfo,
   sInitializeArgs,
   sInterface,
   sKeaDeriveParams,
   sKeyDerivationStringData,
   sKeyWrapSetOaepParams,
   sKipParams,
   sMechanism,
   sMechanismInfo,
   sNistSp800Hyphen108CounterFormat,
   sNistSp800Hyphen108DkmLengthFormat,
   sNistSp800Hyphen108FeedbackKdfParams,
   sNistSp800Hyphen108KdfParams,
   sOtpParam,
   sOtpParams,
   sOtpSignatureInfo,
   sPbeParams,
   sPkcs5Pbkd2Params,
   sPkcs5Pbkd2Params2,
   sPrfDataParam,
   sRc2CbcParams,
   sRc2MacGeneralParams,
   sRc5CbcParams,
   sRc5MacGeneralParams,
   sRc5Params,
   sRsaAesKeyWrapParams,
   sRsaPkcsOaepParams,
   sRsaPkcsPssParams,
   sSalsa20ChaCha20Poly1305MessageParams,
   sSalsa20ChaCha20Poly1305Params,
   sSalsa20Params,
   sSeedCbcEncryptDataParams,
   sSessionInfo,
   sSkipjackPrivateWrapParams,
   sSkipjackRelayxParams,
   sSlotInfo,
   sSsl3KeyMatOut,
   sSsl3KeyMatParams,
   sSsl3MasterKeyDeriveParams,
   sSsl3RandomData,
   sTls12KeyMatParams,
   sTls12MasterKeyDeriveParams,
   sTlsKdfParams,
   sTlsMacParams,
   sTlsPrfParams,
   sTokenInfo,
   sVersion,
   sWtlsKeyMatOut,
   sWtlsKeyMatParams,
   sWtlsMasterKeyDeriveParams,
   sWtlsPrfParams,
   sWtlsRandomData,
   sX9dot42DiffieHellman1DeriveParams,
   sX9dot42DiffieHellman2DeriveParams,
   sX9dot42MqvDeriveParams]

/-- src/Crypto/SoftPkcs11/Callbacks.cpp, `createFunctionList`: the functions handed to the constructor, after the version. -/
def softFunctions : List String :=
  ["C_Initialize", "C_Finalize", "C_GetInfo", "C_GetFunctionList", "C_GetSlotList", "C_GetSlotInfo", "C_GetTokenInfo", "C_GetMechanismList", "C_GetMechanismInfo", "C_InitToken", "C_InitPIN", "C_SetPIN", "C_OpenSession", "C_CloseSession", "C_CloseAllSessions", "C_GetSessionInfo", "C_GetOperationState", "C_SetOperationState", "C_Login", "C_Logout", "C_CreateObject", "C_CopyObject", "C_DestroyObject", "C_GetObjectSize", "C_GetAttributeValue", "C_SetAttributeValue", "C_FindObjectsInit", "C_FindObjects", "C_FindObjectsFinal", "C_EncryptInit", "C_Encrypt", "C_EncryptUpdate", "C_EncryptFinal", "C_DecryptInit", "C_Decrypt", "C_DecryptUpdate", "C_DecryptFinal", "C_DigestInit", "C_Digest", "C_DigestUpdate", "C_DigestKey", "C_DigestFinal", "C_SignInit", "C_Sign", "C_SignUpdate", "C_SignFinal", "C_SignRecoverInit", "C_SignRecover", "C_VerifyInit", "C_Verify", "C_VerifyUpdate", "C_VerifyFinal", "C_VerifyRecoverInit", "C_VerifyRecover", "C_DigestEncryptUpdate", "C_DecryptDigestUpdate", "C_SignEncryptUpdate", "C_DecryptVerifyUpdate", "C_GenerateKey", "C_GenerateKeyPair", "C_WrapKey", "C_UnwrapKey", "C_DeriveKey", "C_SeedRandom", "C_GenerateRandom", "C_GetFunctionStatus", "C_CancelFunction", "C_WaitForSlotEvent"]

/-- src/Crypto/SoftPkcs11/Callbacks.cpp, `createFunctionList3`: the functions handed to the constructor, after the version. -/
def softFunctions3 : List String :=
  ["C_Initialize", "C_Finalize", "C_GetInfo", "C_GetFunctionList", "C_GetSlotList", "C_GetSlotInfo", "C_GetTokenInfo", "C_GetMechanismList", "C_GetMechanismInfo", "C_InitToken", "C_InitPIN", "C_SetPIN", "C_OpenSession", "C_CloseSession", "C_CloseAllSessions", "C_GetSessionInfo", "C_GetOperationState", "C_SetOperationState", "C_Login", "C_Logout", "C_CreateObject", "C_CopyObject", "C_DestroyObject", "C_GetObjectSize", "C_GetAttributeValue", "C_SetAttributeValue", "C_FindObjectsInit", "C_FindObjects", "C_FindObjectsFinal", "C_EncryptInit", "C_Encrypt", "C_EncryptUpdate", "C_EncryptFinal", "C_DecryptInit", "C_Decrypt", "C_DecryptUpdate", "C_DecryptFinal", "C_DigestInit", "C_Digest", "C_DigestUpdate", "C_DigestKey", "C_DigestFinal", "C_SignInit", "C_Sign", "C_SignUpdate", "C_SignFinal", "C_SignRecoverInit", "C_SignRecover", "C_VerifyInit", "C_Verify", "C_VerifyUpdate", "C_VerifyFinal", "C_VerifyRecoverInit", "C_VerifyRecover", "C_DigestEncryptUpdate", "C_DecryptDigestUpdate", "C_SignEncryptUpdate", "C_DecryptVerifyUpdate", "C_GenerateKey", "C_GenerateKeyPair", "C_WrapKey", "C_UnwrapKey", "C_DeriveKey", "C_SeedRandom", "C_GenerateRandom", "C_GetFunctionStatus", "C_CancelFunction", "C_WaitForSlotEvent", "C_GetInterfaceList", "C_GetInterface", "C_LoginUser", "C_SessionCancel", "C_MessageEncryptInit", "C_EncryptMessage", "C_EncryptMessageBegin", "C_EncryptMessageNext", "C_MessageEncryptFinal", "C_MessageDecryptInit", "C_DecryptMessage", "C_DecryptMessageBegin", "C_DecryptMessageNext", "C_MessageDecryptFinal", "C_MessageSignInit", "C_SignMessage", "C_SignMessageBegin", "C_SignMessageNext", "C_MessageSignFinal", "C_MessageVerifyInit", "C_VerifyMessage", "C_VerifyMessageBegin", "C_VerifyMessageNext", "C_MessageVerifyFinal"]

end Flame.Structs
