import Verif.Conformance.Base
/-
The texts of the model against the test vectors of /repo/zemu/test-vectors: for each message, titles and texts of all
items of its review. `#guard` evaluates the model. Those of seed_nonce_revelation name no texts
and are left out. Tests, not proofs.
-/
namespace Tezos.Conformance

def trim (b : Bytes) : String := String.ofList ((b.takeWhile (· ≠ 0)).map fun c => Char.ofNat c.toNat)

/-- The items of the review of a message of operations: branch and contents. -/
def items (message : Bytes) : Option (List (String × String)) :=
  match numItemsOps (message.drop 32) with
  | .error _ => none
  | .ok n => (List.range n.toNat).mapM fun i =>
    match signOpItem real (message.take 32) (message.drop 32) (UInt8.ofNat i) with
    | .ok f => some (trim f.title, trim f.text)
    | .error _ => none

/-! ### zemu/test-vectors/activation.json -/

-- Simple Account Activation #0
#guard items (hex ("a5afb5e96c1af581bcc19ace9da7d2fe7a034aa080b4e55ef094ddb1ff2c48b2049a6090844356d979899622" ++
    "d85ba1602740fcaa84d64537bdf3f6ed8c314075d22f2e03ab867448e1")) = some
   [("Operation", "BLyFa6vTazhbnJfbUPzniBxCVAd9zVjnPxtNX4wWiAc4Hh5RzwL"),
    ("Type", "Acct. Activation"),
    ("Public Key Hash", "tz1ZiJS5gAXD5nrBtUd2YW3BaELJAPou1fmH"),
    ("Secret", "d64537bdf3f6ed8c314075d22f2e03ab867448e1")]

-- Simple Account Activation #1
#guard items (hex ("1c96b9e30d3c833677e3195d024c5d0e4b3770fa10e9fc43a0b79a5563da7b2b049a6090844356d979899622" ++
    "d85ba1602740fcaa84646f2c0861be76ab0299c5ed00e6797d63a85142")) = some
   [("Operation", "BKvsbc8jRPbv1kxb1aidfHCo7ymEEasxruHobQNXLvVzFBUDfEu"),
    ("Type", "Acct. Activation"),
    ("Public Key Hash", "tz1ZiJS5gAXD5nrBtUd2YW3BaELJAPou1fmH"),
    ("Secret", "646f2c0861be76ab0299c5ed00e6797d63a85142")]

-- Simple Account Activation #2
#guard items (hex ("1c96b9e30d3c833677e3195d024c5d0e4b3770fa10e9fc43a0b79a5563da7b2b049a6090844356d979899622" ++
    "d85ba1602740fcaa8446429f62884a42439eee89a62409ed9629a1523c")) = some
   [("Operation", "BKvsbc8jRPbv1kxb1aidfHCo7ymEEasxruHobQNXLvVzFBUDfEu"),
    ("Type", "Acct. Activation"),
    ("Public Key Hash", "tz1ZiJS5gAXD5nrBtUd2YW3BaELJAPou1fmH"),
    ("Secret", "46429f62884a42439eee89a62409ed9629a1523c")]

-- Simple Account Activation #3
#guard items (hex ("1c96b9e30d3c833677e3195d024c5d0e4b3770fa10e9fc43a0b79a5563da7b2b049a6090844356d979899622" ++
    "d85ba1602740fcaa844d09485967cc27fe0cbaa946dc9b5c474f75b24f")) = some
   [("Operation", "BKvsbc8jRPbv1kxb1aidfHCo7ymEEasxruHobQNXLvVzFBUDfEu"),
    ("Type", "Acct. Activation"),
    ("Public Key Hash", "tz1ZiJS5gAXD5nrBtUd2YW3BaELJAPou1fmH"),
    ("Secret", "4d09485967cc27fe0cbaa946dc9b5c474f75b24f")]

-- Simple Account Activation #4
#guard items (hex ("1a4c772e69456efe917ca8444f23f9a6af4a07a0e8bb9a0186b61ec04ca09da1049a6090844356d979899622" ++
    "d85ba1602740fcaa84de0b3d78e352d979e3ac149a5a4befcce714078b")) = some
   [("Operation", "BKus6n8SPVYTdvqGy93HQF6uHnVwU1oAJ5DjkyDTWv8MoaEYx7P"),
    ("Type", "Acct. Activation"),
    ("Public Key Hash", "tz1ZiJS5gAXD5nrBtUd2YW3BaELJAPou1fmH"),
    ("Secret", "de0b3d78e352d979e3ac149a5a4befcce714078b")]

-- Simple Account Activation #5
#guard items (hex ("1a4c772e69456efe917ca8444f23f9a6af4a07a0e8bb9a0186b61ec04ca09da1049a6090844356d979899622" ++
    "d85ba1602740fcaa84275c35c19383656e054c6fc8634c23ce35336667")) = some
   [("Operation", "BKus6n8SPVYTdvqGy93HQF6uHnVwU1oAJ5DjkyDTWv8MoaEYx7P"),
    ("Type", "Acct. Activation"),
    ("Public Key Hash", "tz1ZiJS5gAXD5nrBtUd2YW3BaELJAPou1fmH"),
    ("Secret", "275c35c19383656e054c6fc8634c23ce35336667")]

-- Simple Account Activation #6
#guard items (hex ("8c040f84db12574bfb5224493754275d33637f595cbeba1715a0745f6b7398d6049a6090844356d979899622" ++
    "d85ba1602740fcaa84e72e4c5b42eb0a2825a1c285f6c37342979a9baa")) = some
   [("Operation", "BLmwrRL8nSTUjBt3YpW3ZdmcWF9GT82VjrM7zjJmK8FzvPMd421"),
    ("Type", "Acct. Activation"),
    ("Public Key Hash", "tz1ZiJS5gAXD5nrBtUd2YW3BaELJAPou1fmH"),
    ("Secret", "e72e4c5b42eb0a2825a1c285f6c37342979a9baa")]

-- Simple Account Activation #7
#guard items (hex ("8c040f84db12574bfb5224493754275d33637f595cbeba1715a0745f6b7398d6049a6090844356d979899622" ++
    "d85ba1602740fcaa844fdb44ba454c18654589f4503050223d64bf518e")) = some
   [("Operation", "BLmwrRL8nSTUjBt3YpW3ZdmcWF9GT82VjrM7zjJmK8FzvPMd421"),
    ("Type", "Acct. Activation"),
    ("Public Key Hash", "tz1ZiJS5gAXD5nrBtUd2YW3BaELJAPou1fmH"),
    ("Secret", "4fdb44ba454c18654589f4503050223d64bf518e")]

-- Simple Account Activation #8
#guard items (hex ("a4ab28b31dc48b80001e94afd1f90e657182c98c5f4605d26d440e166133c845049a6090844356d979899622" ++
    "d85ba1602740fcaa842ae0c32ef3cd6f6ef5986d46c2b307640f28437d")) = some
   [("Operation", "BLxoaEGNNTVDfZSwEgaL5wywKar3zhpdvvr6NARNcZC8PuoGmpn"),
    ("Type", "Acct. Activation"),
    ("Public Key Hash", "tz1ZiJS5gAXD5nrBtUd2YW3BaELJAPou1fmH"),
    ("Secret", "2ae0c32ef3cd6f6ef5986d46c2b307640f28437d")]

-- Simple Account Activation #9
#guard items (hex ("a4ab28b31dc48b80001e94afd1f90e657182c98c5f4605d26d440e166133c845049a6090844356d979899622" ++
    "d85ba1602740fcaa843b1dacf5888615c1a10283037c3d9856d91e3405")) = some
   [("Operation", "BLxoaEGNNTVDfZSwEgaL5wywKar3zhpdvvr6NARNcZC8PuoGmpn"),
    ("Type", "Acct. Activation"),
    ("Public Key Hash", "tz1ZiJS5gAXD5nrBtUd2YW3BaELJAPou1fmH"),
    ("Secret", "3b1dacf5888615c1a10283037c3d9856d91e3405")]

/-! ### zemu/test-vectors/ballot.json -/

-- Simple Ballot #0
#guard items (hex ("efda90da510cfd93d21cbff8ff233cb533035c6aa7802838d8f3cd12d214689906009a6090844356d9798996" ++
    "22d85ba1602740fcaa8400000000cbb944f74244ea2681981f25995f8ebba8ff6cee8c036892fe901cb760c4" ++
    "e39e00")) = some
   [("Operation", "BMXv5Vi3SjLsodZyUSstYbJ9Fzeu5wWbuJnCu5rTPbkUwDp5E21"),
    ("Type", "Ballot"),
    ("Source", "tz1ZiJS5gAXD5nrBtUd2YW3BaELJAPou1fmH"),
    ("Period", "0"),
    ("Proposal", "PtGRANADsDU8R9daYKAgWnQYAJ64omN1o3KMGVCykShA97vQbvV"),
    ("Vote", "yay")]

-- Simple Ballot #1
#guard items (hex ("efda90da510cfd93d21cbff8ff233cb533035c6aa7802838d8f3cd12d214689906009a6090844356d9798996" ++
    "22d85ba1602740fcaa8400000001cbb944f74244ea2681981f25995f8ebba8ff6cee8c036892fe901cb760c4" ++
    "e39e02")) = some
   [("Operation", "BMXv5Vi3SjLsodZyUSstYbJ9Fzeu5wWbuJnCu5rTPbkUwDp5E21"),
    ("Type", "Ballot"),
    ("Source", "tz1ZiJS5gAXD5nrBtUd2YW3BaELJAPou1fmH"),
    ("Period", "1"),
    ("Proposal", "PtGRANADsDU8R9daYKAgWnQYAJ64omN1o3KMGVCykShA97vQbvV"),
    ("Vote", "pass")]

-- Simple Ballot #2
#guard items (hex ("5f88d54d53299acbc38642aa3e0f88bf2b1abe26e911ca0b87f002265cac5e1406009a6090844356d9798996" ++
    "22d85ba1602740fcaa84000000024596285c6871691e25196c6a8d26d90a3ac91375731e3926103c517a13a0" ++
    "ba5601")) = some
   [("Operation", "BLSMdroVxJ9KEc6SQau6ptjbYMpKHfWzHMPmNserNYVuoYa5QzN"),
    ("Type", "Ballot"),
    ("Source", "tz1ZiJS5gAXD5nrBtUd2YW3BaELJAPou1fmH"),
    ("Period", "2"),
    ("Proposal", "PsFLorenaUUuikDWvMDr6fGBRG8kt3e3D3fHoXK1j1BFRxeSH4i"),
    ("Vote", "nay")]

-- Simple Ballot #3
#guard items (hex ("5f88d54d53299acbc38642aa3e0f88bf2b1abe26e911ca0b87f002265cac5e1406009a6090844356d9798996" ++
    "22d85ba1602740fcaa8400000003cbb944f74244ea2681981f25995f8ebba8ff6cee8c036892fe901cb760c4" ++
    "e39e00")) = some
   [("Operation", "BLSMdroVxJ9KEc6SQau6ptjbYMpKHfWzHMPmNserNYVuoYa5QzN"),
    ("Type", "Ballot"),
    ("Source", "tz1ZiJS5gAXD5nrBtUd2YW3BaELJAPou1fmH"),
    ("Period", "3"),
    ("Proposal", "PtGRANADsDU8R9daYKAgWnQYAJ64omN1o3KMGVCykShA97vQbvV"),
    ("Vote", "yay")]

-- Simple Ballot #4
#guard items (hex ("5f88d54d53299acbc38642aa3e0f88bf2b1abe26e911ca0b87f002265cac5e1406009a6090844356d9798996" ++
    "22d85ba1602740fcaa84000000044596285c6871691e25196c6a8d26d90a3ac91375731e3926103c517a13a0" ++
    "ba5601")) = some
   [("Operation", "BLSMdroVxJ9KEc6SQau6ptjbYMpKHfWzHMPmNserNYVuoYa5QzN"),
    ("Type", "Ballot"),
    ("Source", "tz1ZiJS5gAXD5nrBtUd2YW3BaELJAPou1fmH"),
    ("Period", "4"),
    ("Proposal", "PsFLorenaUUuikDWvMDr6fGBRG8kt3e3D3fHoXK1j1BFRxeSH4i"),
    ("Vote", "nay")]

-- Simple Ballot #5
#guard items (hex ("cd85332e4a45366a4ca26e74e72c0503af0e8d3720f9d3ae825450efdaf5cd6c06009a6090844356d9798996" ++
    "22d85ba1602740fcaa8400000005cbb944f74244ea2681981f25995f8ebba8ff6cee8c036892fe901cb760c4" ++
    "e39e02")) = some
   [("Operation", "BMGo5NQfhJ3kbXqJyGyZmDWmsv8fJKnMvoBwrxrtTSNbM5pFbXm"),
    ("Type", "Ballot"),
    ("Source", "tz1ZiJS5gAXD5nrBtUd2YW3BaELJAPou1fmH"),
    ("Period", "5"),
    ("Proposal", "PtGRANADsDU8R9daYKAgWnQYAJ64omN1o3KMGVCykShA97vQbvV"),
    ("Vote", "pass")]

-- Simple Ballot #6
#guard items (hex ("cd85332e4a45366a4ca26e74e72c0503af0e8d3720f9d3ae825450efdaf5cd6c06009a6090844356d9798996" ++
    "22d85ba1602740fcaa8400000006cbb944f74244ea2681981f25995f8ebba8ff6cee8c036892fe901cb760c4" ++
    "e39e00")) = some
   [("Operation", "BMGo5NQfhJ3kbXqJyGyZmDWmsv8fJKnMvoBwrxrtTSNbM5pFbXm"),
    ("Type", "Ballot"),
    ("Source", "tz1ZiJS5gAXD5nrBtUd2YW3BaELJAPou1fmH"),
    ("Period", "6"),
    ("Proposal", "PtGRANADsDU8R9daYKAgWnQYAJ64omN1o3KMGVCykShA97vQbvV"),
    ("Vote", "yay")]

-- Simple Ballot #7
#guard items (hex ("2f1541f5fbf137164b1bb64b2598d8b575a534e7a72a59cecb804806bff03bed06009a6090844356d9798996" ++
    "22d85ba1602740fcaa8400000007cbb944f74244ea2681981f25995f8ebba8ff6cee8c036892fe901cb760c4" ++
    "e39e02")) = some
   [("Operation", "BL521TEXuVWaT13SPtkKcGCYxLsAcepT48wXun3KkG1L7M83SVM"),
    ("Type", "Ballot"),
    ("Source", "tz1ZiJS5gAXD5nrBtUd2YW3BaELJAPou1fmH"),
    ("Period", "7"),
    ("Proposal", "PtGRANADsDU8R9daYKAgWnQYAJ64omN1o3KMGVCykShA97vQbvV"),
    ("Vote", "pass")]

-- Simple Ballot #8
#guard items (hex ("2f1541f5fbf137164b1bb64b2598d8b575a534e7a72a59cecb804806bff03bed06009a6090844356d9798996" ++
    "22d85ba1602740fcaa84000000084596285c6871691e25196c6a8d26d90a3ac91375731e3926103c517a13a0" ++
    "ba5601")) = some
   [("Operation", "BL521TEXuVWaT13SPtkKcGCYxLsAcepT48wXun3KkG1L7M83SVM"),
    ("Type", "Ballot"),
    ("Source", "tz1ZiJS5gAXD5nrBtUd2YW3BaELJAPou1fmH"),
    ("Period", "8"),
    ("Proposal", "PsFLorenaUUuikDWvMDr6fGBRG8kt3e3D3fHoXK1j1BFRxeSH4i"),
    ("Vote", "nay")]

-- Simple Ballot #9
#guard items (hex ("2f1541f5fbf137164b1bb64b2598d8b575a534e7a72a59cecb804806bff03bed06009a6090844356d9798996" ++
    "22d85ba1602740fcaa8400000009cbb944f74244ea2681981f25995f8ebba8ff6cee8c036892fe901cb760c4" ++
    "e39e00")) = some
   [("Operation", "BL521TEXuVWaT13SPtkKcGCYxLsAcepT48wXun3KkG1L7M83SVM"),
    ("Type", "Ballot"),
    ("Source", "tz1ZiJS5gAXD5nrBtUd2YW3BaELJAPou1fmH"),
    ("Period", "9"),
    ("Proposal", "PtGRANADsDU8R9daYKAgWnQYAJ64omN1o3KMGVCykShA97vQbvV"),
    ("Vote", "yay")]

/-! ### zemu/test-vectors/delegation.json -/

-- Simple Delegation #0
#guard items (hex ("1bb9a0d1ded53abdfc8add21f55a852b4fd5e661984155fa460a039a4234b9376e009a6090844356d9798996" ++
    "22d85ba1602740fcaa848c03b7f50ecc0800ff00cf49f66b9ea137e11818f2a78b4b6fc9895b4e50")) = some
   [("Operation", "BKvVY4VJi769Yo8AB5MSgcrqwnqiUerAxZ6yV7aLPH5YRivrTRx"),
    ("Type", "Delegation"),
    ("Source", "tz1ZiJS5gAXD5nrBtUd2YW3BaELJAPou1fmH"),
    ("Delegation", "Obsidian"),
    ("Fee", "0.000396"),
    ("Gas Limit", "1100"),
    ("Storage Limit", "0"),
    ("Counter", "244407")]

-- Simple Delegation #1
#guard items (hex ("1bb9a0d1ded53abdfc8add21f55a852b4fd5e661984155fa460a039a4234b9376e009a6090844356d9798996" ++
    "22d85ba1602740fcaa848c03b8f50ecc0800ff00c860be673ae47ec549f9b5a01a8ccb657be75b6a")) = some
   [("Operation", "BKvVY4VJi769Yo8AB5MSgcrqwnqiUerAxZ6yV7aLPH5YRivrTRx"),
    ("Type", "Delegation"),
    ("Source", "tz1ZiJS5gAXD5nrBtUd2YW3BaELJAPou1fmH"),
    ("Delegation", "tz1duXjMpT43K7F1nQajzH5oJLTytLUNxoTZ"),
    ("Fee", "0.000396"),
    ("Gas Limit", "1100"),
    ("Storage Limit", "0"),
    ("Counter", "244408")]

-- Simple Delegation #2
#guard items (hex ("1bb9a0d1ded53abdfc8add21f55a852b4fd5e661984155fa460a039a4234b9376e009a6090844356d9798996" ++
    "22d85ba1602740fcaa848c03b9f50ecc0800ff02792d0b9d857f711e03998bd0a2f219c053704bae")) = some
   [("Operation", "BKvVY4VJi769Yo8AB5MSgcrqwnqiUerAxZ6yV7aLPH5YRivrTRx"),
    ("Type", "Delegation"),
    ("Source", "tz1ZiJS5gAXD5nrBtUd2YW3BaELJAPou1fmH"),
    ("Delegation", "tz3XNmLgSyBTNH2mKWM71fCmLU5umMiBod3u"),
    ("Fee", "0.000396"),
    ("Gas Limit", "1100"),
    ("Storage Limit", "0"),
    ("Counter", "244409")]

-- Simple Delegation #3
#guard items (hex ("1bb9a0d1ded53abdfc8add21f55a852b4fd5e661984155fa460a039a4234b9376e009a6090844356d9798996" ++
    "22d85ba1602740fcaa848c03baf50ecc0800ff01011b2295c8d30e31f5d231f26e551a63a81fd2b7")) = some
   [("Operation", "BKvVY4VJi769Yo8AB5MSgcrqwnqiUerAxZ6yV7aLPH5YRivrTRx"),
    ("Type", "Delegation"),
    ("Source", "tz1ZiJS5gAXD5nrBtUd2YW3BaELJAPou1fmH"),
    ("Delegation", "tz28R5qucJUYPE3oo1gk2Qtd16EVXz9YKu8J"),
    ("Fee", "0.000396"),
    ("Gas Limit", "1100"),
    ("Storage Limit", "0"),
    ("Counter", "244410")]

-- Simple Delegation #4
#guard items (hex ("d8be10187d9069adedd55a735a9268b97f1e3460d1e70413dd920eaa79c1854a6e009a6090844356d9798996" ++
    "22d85ba1602740fcaa848c03bbf50ecc080000")) = some
   [("Operation", "BMMjjJX9B9i2hJfm2SwNCVJ9AcbpYsBWLFfpwXq1SzfkH9zaDyi"),
    ("Type", "Delegation Withdrawal"),
    ("Source", "tz1ZiJS5gAXD5nrBtUd2YW3BaELJAPou1fmH"),
    ("Delegation", "<REVOKED>"),
    ("Fee", "0.000396"),
    ("Gas Limit", "1100"),
    ("Storage Limit", "0"),
    ("Counter", "244411")]

-- Simple Delegation #5
#guard items (hex ("d8be10187d9069adedd55a735a9268b97f1e3460d1e70413dd920eaa79c1854a6e009a6090844356d9798996" ++
    "22d85ba1602740fcaa848c03bcf50ecc0800ff00cf49f66b9ea137e11818f2a78b4b6fc9895b4e50")) = some
   [("Operation", "BMMjjJX9B9i2hJfm2SwNCVJ9AcbpYsBWLFfpwXq1SzfkH9zaDyi"),
    ("Type", "Delegation"),
    ("Source", "tz1ZiJS5gAXD5nrBtUd2YW3BaELJAPou1fmH"),
    ("Delegation", "Obsidian"),
    ("Fee", "0.000396"),
    ("Gas Limit", "1100"),
    ("Storage Limit", "0"),
    ("Counter", "244412")]

-- Simple Delegation #6
#guard items (hex ("1430e5bc585dffedbf8564998a832b41878a10a13a4ca69ff8a310f389d4ff206e009a6090844356d9798996" ++
    "22d85ba1602740fcaa848c03bdf50ecc0800ff00c860be673ae47ec549f9b5a01a8ccb657be75b6a")) = some
   [("Operation", "BKsB63RbiwFU9dnN8rZvBdYCdDBrpRphVHoo8ton8JBxjS4GWGF"),
    ("Type", "Delegation"),
    ("Source", "tz1ZiJS5gAXD5nrBtUd2YW3BaELJAPou1fmH"),
    ("Delegation", "tz1duXjMpT43K7F1nQajzH5oJLTytLUNxoTZ"),
    ("Fee", "0.000396"),
    ("Gas Limit", "1100"),
    ("Storage Limit", "0"),
    ("Counter", "244413")]

-- Simple Delegation #7
#guard items (hex ("1a21a87720cf8e87f91d36c503ae1528f42a0fc7a41fbdd984090a65c875f9dd6e009a6090844356d9798996" ++
    "22d85ba1602740fcaa848c03bef50ecc0800ff02792d0b9d857f711e03998bd0a2f219c053704bae")) = some
   [("Operation", "BKunq3PGhboQC77N7RaZsxsPQSBw5VsRdbfNv68xn8G7ymuvqAo"),
    ("Type", "Delegation"),
    ("Source", "tz1ZiJS5gAXD5nrBtUd2YW3BaELJAPou1fmH"),
    ("Delegation", "tz3XNmLgSyBTNH2mKWM71fCmLU5umMiBod3u"),
    ("Fee", "0.000396"),
    ("Gas Limit", "1100"),
    ("Storage Limit", "0"),
    ("Counter", "244414")]

-- Simple Delegation #8
#guard items (hex ("6e55d39d731ea9c669da7bda55512ccd316989897590777d4e1a9f54aa0bf7a76e009a6090844356d9798996" ++
    "22d85ba1602740fcaa848c03bff50ecc0800ff01011b2295c8d30e31f5d231f26e551a63a81fd2b7")) = some
   [("Operation", "BLYshevbxi3YFDXCFzvqnzqfHtmGhNQFWCcqgV8k4iKc9vCU2Dx"),
    ("Type", "Delegation"),
    ("Source", "tz1ZiJS5gAXD5nrBtUd2YW3BaELJAPou1fmH"),
    ("Delegation", "tz28R5qucJUYPE3oo1gk2Qtd16EVXz9YKu8J"),
    ("Fee", "0.000396"),
    ("Gas Limit", "1100"),
    ("Storage Limit", "0"),
    ("Counter", "244415")]

-- Simple Delegation #9
#guard items (hex ("6e55d39d731ea9c669da7bda55512ccd316989897590777d4e1a9f54aa0bf7a76e009a6090844356d9798996" ++
    "22d85ba1602740fcaa848c03c0f50ecc080000")) = some
   [("Operation", "BLYshevbxi3YFDXCFzvqnzqfHtmGhNQFWCcqgV8k4iKc9vCU2Dx"),
    ("Type", "Delegation Withdrawal"),
    ("Source", "tz1ZiJS5gAXD5nrBtUd2YW3BaELJAPou1fmH"),
    ("Delegation", "<REVOKED>"),
    ("Fee", "0.000396"),
    ("Gas Limit", "1100"),
    ("Storage Limit", "0"),
    ("Counter", "244416")]

/-! ### zemu/test-vectors/endorsement.json -/

-- Simple Endorsement #0
#guard items (hex ("ccdf4f4df413ba76836270e8b679cce20234f229f03d740e56b9cfcdb0a4ece90000000000")) = some
   [("Operation", "BMGWXKnWKSopuerabeAtwFwJoJFVnPYhynkGavYwq6cdaqK9L2M"),
    ("Type", "Endorsement"),
    ("Level", "0")]

-- Simple Endorsement #1
#guard items (hex ("74c2ad3f96ccf74fd521b2dfe7237b6b167099c474c49cd5ef02ef47868d9cad0000000001")) = some
   [("Operation", "BLbhpni7EgQ6bFkpo9uvJrDUQhBzCRENrYXX3cUZAWKBjKnoB9G"),
    ("Type", "Endorsement"),
    ("Level", "1")]

-- Simple Endorsement #2
#guard items (hex ("74c2ad3f96ccf74fd521b2dfe7237b6b167099c474c49cd5ef02ef47868d9cad0000000002")) = some
   [("Operation", "BLbhpni7EgQ6bFkpo9uvJrDUQhBzCRENrYXX3cUZAWKBjKnoB9G"),
    ("Type", "Endorsement"),
    ("Level", "2")]

-- Simple Endorsement #3
#guard items (hex ("7389f90d2f50964f0bcc03a4cba146700534f89babde7645f6b60b401acf36670000000003")) = some
   [("Operation", "BLbAd6dsLobUt77Uz256aqyDfsBhEaW6iMn8WXt33DEkSaVoooj"),
    ("Type", "Endorsement"),
    ("Level", "3")]

-- Simple Endorsement #4
#guard items (hex ("7389f90d2f50964f0bcc03a4cba146700534f89babde7645f6b60b401acf36670000000004")) = some
   [("Operation", "BLbAd6dsLobUt77Uz256aqyDfsBhEaW6iMn8WXt33DEkSaVoooj"),
    ("Type", "Endorsement"),
    ("Level", "4")]

-- Simple Endorsement #5
#guard items (hex ("7389f90d2f50964f0bcc03a4cba146700534f89babde7645f6b60b401acf36670000000005")) = some
   [("Operation", "BLbAd6dsLobUt77Uz256aqyDfsBhEaW6iMn8WXt33DEkSaVoooj"),
    ("Type", "Endorsement"),
    ("Level", "5")]

-- Simple Endorsement #6
#guard items (hex ("7389f90d2f50964f0bcc03a4cba146700534f89babde7645f6b60b401acf36670000000006")) = some
   [("Operation", "BLbAd6dsLobUt77Uz256aqyDfsBhEaW6iMn8WXt33DEkSaVoooj"),
    ("Type", "Endorsement"),
    ("Level", "6")]

-- Simple Endorsement #7
#guard items (hex ("b748dc967b7c0e85fa00718ba1817b1bd96beda801b0abf88ab3b5dcd7e543e80000000007")) = some
   [("Operation", "BM716UGAGBapDfWXFp86gomWraC13oW5tsnqrCTfM5EwV3NpZjG"),
    ("Type", "Endorsement"),
    ("Level", "7")]

-- Simple Endorsement #8
#guard items (hex ("8a73465776f015ddeffd1a6fb84bd1dc6149af9061d70b1c25e837d875c6fe220000000008")) = some
   [("Operation", "BLmFryhddpTxYbdcHhb5KgqB5VxpGdR51gwH1Sii3UiSzmYaYKp"),
    ("Type", "Endorsement"),
    ("Level", "8")]

-- Simple Endorsement #9
#guard items (hex ("8a73465776f015ddeffd1a6fb84bd1dc6149af9061d70b1c25e837d875c6fe220000000009")) = some
   [("Operation", "BLmFryhddpTxYbdcHhb5KgqB5VxpGdR51gwH1Sii3UiSzmYaYKp"),
    ("Type", "Endorsement"),
    ("Level", "9")]

/-! ### zemu/test-vectors/legacy.json -/

-- Simple TX #0
#guard items (hex ("531a52c9b8258838bf7f8a413b8035cf5b547cff54f69468fdc13434726889e76c009a6090844356d9798996" ++
    "22d85ba1602740fcaa84b903b7f50ef00b8102904e00018907e2009bc7da38c9cf0cf97bb331ef86d5392b00")) = some
   [("Operation", "BLLt5vjgYuRRv7a9c1JzXJ8VjEe1LKgaRCYLqQPf5dcCPaEke6J"),
    ("Type", "Transaction"),
    ("Source", "tz1ZiJS5gAXD5nrBtUd2YW3BaELJAPou1fmH"),
    ("Destination", "tz2LongKpD5pxHHK5FmvDKvFAFJ2wzsujrZP"),
    ("Amount", "0.010000"),
    ("Fee", "0.000441"),
    ("Parameters", "no parameters..."),
    ("Gas Limit", "1520"),
    ("Storage Limit", "257"),
    ("Counter", "244407")]

-- Simple TX #1
#guard items (hex ("531a52c9b8258838bf7f8a413b8035cf5b547cff54f69468fdc13434726889e76c009a6090844356d9798996" ++
    "22d85ba1602740fcaa84b903b7f50ef00b8102904e00018907e2009bc7da38c9cf0cf97bb331ef86d5392b00")) = some
   [("Operation", "BLLt5vjgYuRRv7a9c1JzXJ8VjEe1LKgaRCYLqQPf5dcCPaEke6J"),
    ("Type", "Transaction"),
    ("Source", "tz1ZiJS5gAXD5nrBtUd2YW3BaELJAPou1fmH"),
    ("Destination", "tz2LongKpD5pxHHK5FmvDKvFAFJ2wzsujrZP"),
    ("Amount", "0.010000"),
    ("Fee", "0.000441"),
    ("Parameters", "no parameters..."),
    ("Gas Limit", "1520"),
    ("Storage Limit", "257"),
    ("Counter", "244407")]

-- Simple TX #2
#guard items (hex ("b1ada21e68250eeaed13b65e2f4888061a81949d0568362b4a230b88ca98560c6c009a6090844356d9798996" ++
    "22d85ba1602740fcaa84b903b7f50ef00b8102904e00018907e2009bc7da38c9cf0cf97bb331ef86d5392b00")) = some
   [("Operation", "BM4XtU2nfqntjCpiHDLk5pL9icXqGSswmKvMUhLfrLE16zj1BsK"),
    ("Type", "Transaction"),
    ("Source", "tz1ZiJS5gAXD5nrBtUd2YW3BaELJAPou1fmH"),
    ("Destination", "tz2LongKpD5pxHHK5FmvDKvFAFJ2wzsujrZP"),
    ("Amount", "0.010000"),
    ("Fee", "0.000441"),
    ("Parameters", "no parameters..."),
    ("Gas Limit", "1520"),
    ("Storage Limit", "257"),
    ("Counter", "244407")]

-- Simple TX #3
#guard items (hex ("b1ada21e68250eeaed13b65e2f4888061a81949d0568362b4a230b88ca98560c6c009a6090844356d9798996" ++
    "22d85ba1602740fcaa84b903b7f50ef00b8102904e00018907e2009bc7da38c9cf0cf97bb331ef86d5392b00")) = some
   [("Operation", "BM4XtU2nfqntjCpiHDLk5pL9icXqGSswmKvMUhLfrLE16zj1BsK"),
    ("Type", "Transaction"),
    ("Source", "tz1ZiJS5gAXD5nrBtUd2YW3BaELJAPou1fmH"),
    ("Destination", "tz2LongKpD5pxHHK5FmvDKvFAFJ2wzsujrZP"),
    ("Amount", "0.010000"),
    ("Fee", "0.000441"),
    ("Parameters", "no parameters..."),
    ("Gas Limit", "1520"),
    ("Storage Limit", "257"),
    ("Counter", "244407")]

-- Simple TX #4
#guard items (hex ("bb6ac555b78fea6c5538b753b8f8a7a40c935b267ac0e879fba1ce8b2c9930286c009a6090844356d9798996" ++
    "22d85ba1602740fcaa84b903b7f50ef00b8102904e00018907e2009bc7da38c9cf0cf97bb331ef86d5392b00")) = some
   [("Operation", "BM8peqfJ91q57sGSf6njEe1Gg8qe7Pnb7wmMwHm5JGULYvbbXr2"),
    ("Type", "Transaction"),
    ("Source", "tz1ZiJS5gAXD5nrBtUd2YW3BaELJAPou1fmH"),
    ("Destination", "tz2LongKpD5pxHHK5FmvDKvFAFJ2wzsujrZP"),
    ("Amount", "0.010000"),
    ("Fee", "0.000441"),
    ("Parameters", "no parameters..."),
    ("Gas Limit", "1520"),
    ("Storage Limit", "257"),
    ("Counter", "244407")]

-- Simple TX #5
#guard items (hex ("3110b7f835da1801d6c86177012eebe1aff38ea43132a6623497e33bb4b6bf2d6c009a6090844356d9798996" ++
    "22d85ba1602740fcaa84b903b7f50ef00b8102904e00018907e2009bc7da38c9cf0cf97bb331ef86d5392b00")) = some
   [("Operation", "BL5teFPtyckudX46f2fWWFt2uPobg126btS47oAmFk534WDkgqc"),
    ("Type", "Transaction"),
    ("Source", "tz1ZiJS5gAXD5nrBtUd2YW3BaELJAPou1fmH"),
    ("Destination", "tz2LongKpD5pxHHK5FmvDKvFAFJ2wzsujrZP"),
    ("Amount", "0.010000"),
    ("Fee", "0.000441"),
    ("Parameters", "no parameters..."),
    ("Gas Limit", "1520"),
    ("Storage Limit", "257"),
    ("Counter", "244407")]

-- Simple TX #6
#guard items (hex ("e57035263b1c6bae8a3e6233be206a9eceff84d263e4d4feb5a272a58410d48e6c009a6090844356d9798996" ++
    "22d85ba1602740fcaa84b903b7f50ef00b8102904e00018907e2009bc7da38c9cf0cf97bb331ef86d5392b00")) = some
   [("Operation", "BMTL2eu4yxK1XZh6EeT1QwN4DYzkCKcZYUZS1XYmXuMAoRg7jGF"),
    ("Type", "Transaction"),
    ("Source", "tz1ZiJS5gAXD5nrBtUd2YW3BaELJAPou1fmH"),
    ("Destination", "tz2LongKpD5pxHHK5FmvDKvFAFJ2wzsujrZP"),
    ("Amount", "0.010000"),
    ("Fee", "0.000441"),
    ("Parameters", "no parameters..."),
    ("Gas Limit", "1520"),
    ("Storage Limit", "257"),
    ("Counter", "244407")]

-- Simple TX #7
#guard items (hex ("e57035263b1c6bae8a3e6233be206a9eceff84d263e4d4feb5a272a58410d48e6c009a6090844356d9798996" ++
    "22d85ba1602740fcaa84b903b7f50ef00b8102904e00018907e2009bc7da38c9cf0cf97bb331ef86d5392b00")) = some
   [("Operation", "BMTL2eu4yxK1XZh6EeT1QwN4DYzkCKcZYUZS1XYmXuMAoRg7jGF"),
    ("Type", "Transaction"),
    ("Source", "tz1ZiJS5gAXD5nrBtUd2YW3BaELJAPou1fmH"),
    ("Destination", "tz2LongKpD5pxHHK5FmvDKvFAFJ2wzsujrZP"),
    ("Amount", "0.010000"),
    ("Fee", "0.000441"),
    ("Parameters", "no parameters..."),
    ("Gas Limit", "1520"),
    ("Storage Limit", "257"),
    ("Counter", "244407")]

-- Simple TX #8
#guard items (hex ("a112118d7cff0b8a35db3252016d316df6726af7b99cbaf5412627d8c19a48f56c009a6090844356d9798996" ++
    "22d85ba1602740fcaa84b903b7f50ef00b8102904e00018907e2009bc7da38c9cf0cf97bb331ef86d5392b00")) = some
   [("Operation", "BLwDffQ2TZJ3GcSaf8fCiWcjBscFeBkvZf98BX2YAsx1e2A4VYu"),
    ("Type", "Transaction"),
    ("Source", "tz1ZiJS5gAXD5nrBtUd2YW3BaELJAPou1fmH"),
    ("Destination", "tz2LongKpD5pxHHK5FmvDKvFAFJ2wzsujrZP"),
    ("Amount", "0.010000"),
    ("Fee", "0.000441"),
    ("Parameters", "no parameters..."),
    ("Gas Limit", "1520"),
    ("Storage Limit", "257"),
    ("Counter", "244407")]

-- Simple TX #9
#guard items (hex ("a112118d7cff0b8a35db3252016d316df6726af7b99cbaf5412627d8c19a48f56c009a6090844356d9798996" ++
    "22d85ba1602740fcaa84b903b7f50ef00b8102904e00018907e2009bc7da38c9cf0cf97bb331ef86d5392b00")) = some
   [("Operation", "BLwDffQ2TZJ3GcSaf8fCiWcjBscFeBkvZf98BX2YAsx1e2A4VYu"),
    ("Type", "Transaction"),
    ("Source", "tz1ZiJS5gAXD5nrBtUd2YW3BaELJAPou1fmH"),
    ("Destination", "tz2LongKpD5pxHHK5FmvDKvFAFJ2wzsujrZP"),
    ("Amount", "0.010000"),
    ("Fee", "0.000441"),
    ("Parameters", "no parameters..."),
    ("Gas Limit", "1520"),
    ("Storage Limit", "257"),
    ("Counter", "244407")]

/-! ### zemu/test-vectors/origination.json -/

-- Simple Origination #0
#guard items (hex ("8369222ddb080b87ba8540374fa22d81d6d0d97cfc6ba10474e1bd6760f142a26d009a6090844356d9798996" ++
    "22d85ba1602740fcaa84904eb7f50e0a0a00ff02792d0b9d857f711e03998bd0a2f219c053704bae00000011" ++
    "020000000c0500036c0501036c0502030200000002030b")) = some
   [("Operation", "BLiA3ZdkzYdn59Zgz4RkLrC5hubUFkXv29jaggQDzb3AeQiHCpe"),
    ("Type", "Origination"),
    ("Source", "tz1ZiJS5gAXD5nrBtUd2YW3BaELJAPou1fmH"),
    ("Balance", "0.000000"),
    ("Delegate", "tz3XNmLgSyBTNH2mKWM71fCmLU5umMiBod3u"),
    ("Fee", "0.010000"),
    ("Code", "14aa2dc4debdb8dea6698a89d77f47ea3bced7af498ace553477012860db0c46"),
    ("Storage", "ab2491c3b754d3ba49e93fb08892f7c6ac126efab9c7a77638009b7fe275af36"),
    ("Gas Limit", "10"),
    ("Storage Limit", "10"),
    ("Counter", "244407")]

-- Simple Origination #1
#guard items (hex ("8369222ddb080b87ba8540374fa22d81d6d0d97cfc6ba10474e1bd6760f142a26d009a6090844356d9798996" ++
    "22d85ba1602740fcaa84904eb8f50e0a0a01ff00c860be673ae47ec549f9b5a01a8ccb657be75b6a00000011" ++
    "020000000c0500036c0501036c0502030200000002030b")) = some
   [("Operation", "BLiA3ZdkzYdn59Zgz4RkLrC5hubUFkXv29jaggQDzb3AeQiHCpe"),
    ("Type", "Origination"),
    ("Source", "tz1ZiJS5gAXD5nrBtUd2YW3BaELJAPou1fmH"),
    ("Balance", "0.000001"),
    ("Delegate", "tz1duXjMpT43K7F1nQajzH5oJLTytLUNxoTZ"),
    ("Fee", "0.010000"),
    ("Code", "14aa2dc4debdb8dea6698a89d77f47ea3bced7af498ace553477012860db0c46"),
    ("Storage", "ab2491c3b754d3ba49e93fb08892f7c6ac126efab9c7a77638009b7fe275af36"),
    ("Gas Limit", "10"),
    ("Storage Limit", "10"),
    ("Counter", "244408")]

-- Simple Origination #2
#guard items (hex ("8369222ddb080b87ba8540374fa22d81d6d0d97cfc6ba10474e1bd6760f142a26d009a6090844356d9798996" ++
    "22d85ba1602740fcaa84904eb9f50e0a0a02ff01011b2295c8d30e31f5d231f26e551a63a81fd2b700000011" ++
    "020000000c0500036c0501036c0502030200000002030b")) = some
   [("Operation", "BLiA3ZdkzYdn59Zgz4RkLrC5hubUFkXv29jaggQDzb3AeQiHCpe"),
    ("Type", "Origination"),
    ("Source", "tz1ZiJS5gAXD5nrBtUd2YW3BaELJAPou1fmH"),
    ("Balance", "0.000002"),
    ("Delegate", "tz28R5qucJUYPE3oo1gk2Qtd16EVXz9YKu8J"),
    ("Fee", "0.010000"),
    ("Code", "14aa2dc4debdb8dea6698a89d77f47ea3bced7af498ace553477012860db0c46"),
    ("Storage", "ab2491c3b754d3ba49e93fb08892f7c6ac126efab9c7a77638009b7fe275af36"),
    ("Gas Limit", "10"),
    ("Storage Limit", "10"),
    ("Counter", "244409")]

-- Simple Origination #3
#guard items (hex ("8369222ddb080b87ba8540374fa22d81d6d0d97cfc6ba10474e1bd6760f142a26d009a6090844356d9798996" ++
    "22d85ba1602740fcaa84904ebaf50e0a0a03ff02792d0b9d857f711e03998bd0a2f219c053704bae00000011" ++
    "020000000c0500036c0501036c0502030200000002030b")) = some
   [("Operation", "BLiA3ZdkzYdn59Zgz4RkLrC5hubUFkXv29jaggQDzb3AeQiHCpe"),
    ("Type", "Origination"),
    ("Source", "tz1ZiJS5gAXD5nrBtUd2YW3BaELJAPou1fmH"),
    ("Balance", "0.000003"),
    ("Delegate", "tz3XNmLgSyBTNH2mKWM71fCmLU5umMiBod3u"),
    ("Fee", "0.010000"),
    ("Code", "14aa2dc4debdb8dea6698a89d77f47ea3bced7af498ace553477012860db0c46"),
    ("Storage", "ab2491c3b754d3ba49e93fb08892f7c6ac126efab9c7a77638009b7fe275af36"),
    ("Gas Limit", "10"),
    ("Storage Limit", "10"),
    ("Counter", "244410")]

-- Simple Origination #4
#guard items (hex ("8369222ddb080b87ba8540374fa22d81d6d0d97cfc6ba10474e1bd6760f142a26d009a6090844356d9798996" ++
    "22d85ba1602740fcaa84904ebbf50e0a0a04ff01011b2295c8d30e31f5d231f26e551a63a81fd2b700000011" ++
    "020000000c0500036c0501036c0502030200000002030b")) = some
   [("Operation", "BLiA3ZdkzYdn59Zgz4RkLrC5hubUFkXv29jaggQDzb3AeQiHCpe"),
    ("Type", "Origination"),
    ("Source", "tz1ZiJS5gAXD5nrBtUd2YW3BaELJAPou1fmH"),
    ("Balance", "0.000004"),
    ("Delegate", "tz28R5qucJUYPE3oo1gk2Qtd16EVXz9YKu8J"),
    ("Fee", "0.010000"),
    ("Code", "14aa2dc4debdb8dea6698a89d77f47ea3bced7af498ace553477012860db0c46"),
    ("Storage", "ab2491c3b754d3ba49e93fb08892f7c6ac126efab9c7a77638009b7fe275af36"),
    ("Gas Limit", "10"),
    ("Storage Limit", "10"),
    ("Counter", "244411")]

-- Simple Origination #5
#guard items (hex ("8369222ddb080b87ba8540374fa22d81d6d0d97cfc6ba10474e1bd6760f142a26d009a6090844356d9798996" ++
    "22d85ba1602740fcaa84904ebcf50e0a0a050000000011020000000c0500036c0501036c0502030200000002" ++
    "030b")) = some
   [("Operation", "BLiA3ZdkzYdn59Zgz4RkLrC5hubUFkXv29jaggQDzb3AeQiHCpe"),
    ("Type", "Origination"),
    ("Source", "tz1ZiJS5gAXD5nrBtUd2YW3BaELJAPou1fmH"),
    ("Balance", "0.000005"),
    ("Delegate", "no delegate"),
    ("Fee", "0.010000"),
    ("Code", "14aa2dc4debdb8dea6698a89d77f47ea3bced7af498ace553477012860db0c46"),
    ("Storage", "ab2491c3b754d3ba49e93fb08892f7c6ac126efab9c7a77638009b7fe275af36"),
    ("Gas Limit", "10"),
    ("Storage Limit", "10"),
    ("Counter", "244412")]

-- Simple Origination #6
#guard items (hex ("4e097d78d277409f2f034cb2da7f01f185db1b8847ad2a37a98afef2126dbfa66d009a6090844356d9798996" ++
    "22d85ba1602740fcaa84904ebdf50e0a0a06ff02792d0b9d857f711e03998bd0a2f219c053704bae00000011" ++
    "020000000c0500036c0501036c0502030200000002030b")) = some
   [("Operation", "BLJegrATQNDNAtqHsjzoizvN3AofAd2ZUYP96hz4wRxXog4b23z"),
    ("Type", "Origination"),
    ("Source", "tz1ZiJS5gAXD5nrBtUd2YW3BaELJAPou1fmH"),
    ("Balance", "0.000006"),
    ("Delegate", "tz3XNmLgSyBTNH2mKWM71fCmLU5umMiBod3u"),
    ("Fee", "0.010000"),
    ("Code", "14aa2dc4debdb8dea6698a89d77f47ea3bced7af498ace553477012860db0c46"),
    ("Storage", "ab2491c3b754d3ba49e93fb08892f7c6ac126efab9c7a77638009b7fe275af36"),
    ("Gas Limit", "10"),
    ("Storage Limit", "10"),
    ("Counter", "244413")]

-- Simple Origination #7
#guard items (hex ("4e097d78d277409f2f034cb2da7f01f185db1b8847ad2a37a98afef2126dbfa66d009a6090844356d9798996" ++
    "22d85ba1602740fcaa84904ebef50e0a0a07ff00c860be673ae47ec549f9b5a01a8ccb657be75b6a00000011" ++
    "020000000c0500036c0501036c0502030200000002030b")) = some
   [("Operation", "BLJegrATQNDNAtqHsjzoizvN3AofAd2ZUYP96hz4wRxXog4b23z"),
    ("Type", "Origination"),
    ("Source", "tz1ZiJS5gAXD5nrBtUd2YW3BaELJAPou1fmH"),
    ("Balance", "0.000007"),
    ("Delegate", "tz1duXjMpT43K7F1nQajzH5oJLTytLUNxoTZ"),
    ("Fee", "0.010000"),
    ("Code", "14aa2dc4debdb8dea6698a89d77f47ea3bced7af498ace553477012860db0c46"),
    ("Storage", "ab2491c3b754d3ba49e93fb08892f7c6ac126efab9c7a77638009b7fe275af36"),
    ("Gas Limit", "10"),
    ("Storage Limit", "10"),
    ("Counter", "244414")]

-- Simple Origination #8
#guard items (hex ("3877cf6dc96eef9b78eb62340fc5027dc57815445f2c2e1d33d2da3f699fd1b46d009a6090844356d9798996" ++
    "22d85ba1602740fcaa84904ebff50e0a0a08ff01011b2295c8d30e31f5d231f26e551a63a81fd2b700000011" ++
    "020000000c0500036c0501036c0502030200000002030b")) = some
   [("Operation", "BL99jb9kfixooA1Wkkywc51V3TL2xQzgTJgKwayjFw3Fk2CL1q9"),
    ("Type", "Origination"),
    ("Source", "tz1ZiJS5gAXD5nrBtUd2YW3BaELJAPou1fmH"),
    ("Balance", "0.000008"),
    ("Delegate", "tz28R5qucJUYPE3oo1gk2Qtd16EVXz9YKu8J"),
    ("Fee", "0.010000"),
    ("Code", "14aa2dc4debdb8dea6698a89d77f47ea3bced7af498ace553477012860db0c46"),
    ("Storage", "ab2491c3b754d3ba49e93fb08892f7c6ac126efab9c7a77638009b7fe275af36"),
    ("Gas Limit", "10"),
    ("Storage Limit", "10"),
    ("Counter", "244415")]

-- Simple Origination #9
#guard items (hex ("3877cf6dc96eef9b78eb62340fc5027dc57815445f2c2e1d33d2da3f699fd1b46d009a6090844356d9798996" ++
    "22d85ba1602740fcaa84904ec0f50e0a0a09ff02792d0b9d857f711e03998bd0a2f219c053704bae00000011" ++
    "020000000c0500036c0501036c0502030200000002030b")) = some
   [("Operation", "BL99jb9kfixooA1Wkkywc51V3TL2xQzgTJgKwayjFw3Fk2CL1q9"),
    ("Type", "Origination"),
    ("Source", "tz1ZiJS5gAXD5nrBtUd2YW3BaELJAPou1fmH"),
    ("Balance", "0.000009"),
    ("Delegate", "tz3XNmLgSyBTNH2mKWM71fCmLU5umMiBod3u"),
    ("Fee", "0.010000"),
    ("Code", "14aa2dc4debdb8dea6698a89d77f47ea3bced7af498ace553477012860db0c46"),
    ("Storage", "ab2491c3b754d3ba49e93fb08892f7c6ac126efab9c7a77638009b7fe275af36"),
    ("Gas Limit", "10"),
    ("Storage Limit", "10"),
    ("Counter", "244416")]

/-! ### zemu/test-vectors/proposals.json -/

-- Simple Proposals #0
#guard items (hex ("b2edbcafd1e6a3ccf0ada55d8e291be8dd01dd475233334bf22c1eb1c484e9ee05009a6090844356d9798996" ++
    "22d85ba1602740fcaa8400000000000000403e5e3a606afab74a59ca09e333633e2770b6492c5e594455b71e" ++
    "9a2f0ea92afb4596285c6871691e25196c6a8d26d90a3ac91375731e3926103c517a13a0ba56")) = some
   [("Operation", "BM55pywwm3TMe2rVaNU6eq1oBZL2SMqCDoqnp9XUH4hAs7raTdY"),
    ("Type", "Proposals"),
    ("Source", "tz1ZiJS5gAXD5nrBtUd2YW3BaELJAPou1fmH"),
    ("Period", "0"),
    ("Proposal #1", "PsCARTHAGazKbHtnKfLzQg3kms52kSRpgnDY982a9oYsSXRLQEb"),
    ("Proposal #2", "PsFLorenaUUuikDWvMDr6fGBRG8kt3e3D3fHoXK1j1BFRxeSH4i")]

-- Simple Proposals #1
#guard items (hex ("93e90f0dd92c1389a7a0158aa7cbe13e5eb479d98c9c3c2c25032b8e27ef663405009a6090844356d9798996" ++
    "22d85ba1602740fcaa8400000001000000404596285c6871691e25196c6a8d26d90a3ac91375731e3926103c" ++
    "517a13a0ba563e5e3a606afab74a59ca09e333633e2770b6492c5e594455b71e9a2f0ea92afb")) = some
   [("Operation", "BLqRWQqBMa7wzbXsjQSqvLkv3JoxZTcL1TDtMbjFMeyDTu7zSML"),
    ("Type", "Proposals"),
    ("Source", "tz1ZiJS5gAXD5nrBtUd2YW3BaELJAPou1fmH"),
    ("Period", "1"),
    ("Proposal #1", "PsFLorenaUUuikDWvMDr6fGBRG8kt3e3D3fHoXK1j1BFRxeSH4i"),
    ("Proposal #2", "PsCARTHAGazKbHtnKfLzQg3kms52kSRpgnDY982a9oYsSXRLQEb")]

-- Simple Proposals #2
#guard items (hex ("93e90f0dd92c1389a7a0158aa7cbe13e5eb479d98c9c3c2c25032b8e27ef663405009a6090844356d9798996" ++
    "22d85ba1602740fcaa8400000002000000403e5e3a606afab74a59ca09e333633e2770b6492c5e594455b71e" ++
    "9a2f0ea92afb4596285c6871691e25196c6a8d26d90a3ac91375731e3926103c517a13a0ba56")) = some
   [("Operation", "BLqRWQqBMa7wzbXsjQSqvLkv3JoxZTcL1TDtMbjFMeyDTu7zSML"),
    ("Type", "Proposals"),
    ("Source", "tz1ZiJS5gAXD5nrBtUd2YW3BaELJAPou1fmH"),
    ("Period", "2"),
    ("Proposal #1", "PsCARTHAGazKbHtnKfLzQg3kms52kSRpgnDY982a9oYsSXRLQEb"),
    ("Proposal #2", "PsFLorenaUUuikDWvMDr6fGBRG8kt3e3D3fHoXK1j1BFRxeSH4i")]

-- Simple Proposals #3
#guard items (hex ("7ff40fcd58610a5e5576711e7ac5c7ad94344e36129b454142aed4955edde1ad05009a6090844356d9798996" ++
    "22d85ba1602740fcaa8400000003000000404596285c6871691e25196c6a8d26d90a3ac91375731e3926103c" ++
    "517a13a0ba563e5e3a606afab74a59ca09e333633e2770b6492c5e594455b71e9a2f0ea92afb")) = some
   [("Operation", "BLgdjSmUASh9veptJMEP9NLHvCWQpyB1RVXmYxiDGnoLeYDsCmZ"),
    ("Type", "Proposals"),
    ("Source", "tz1ZiJS5gAXD5nrBtUd2YW3BaELJAPou1fmH"),
    ("Period", "3"),
    ("Proposal #1", "PsFLorenaUUuikDWvMDr6fGBRG8kt3e3D3fHoXK1j1BFRxeSH4i"),
    ("Proposal #2", "PsCARTHAGazKbHtnKfLzQg3kms52kSRpgnDY982a9oYsSXRLQEb")]

-- Simple Proposals #4
#guard items (hex ("7ff40fcd58610a5e5576711e7ac5c7ad94344e36129b454142aed4955edde1ad05009a6090844356d9798996" ++
    "22d85ba1602740fcaa8400000004000000403e5e3a606afab74a59ca09e333633e2770b6492c5e594455b71e" ++
    "9a2f0ea92afb4596285c6871691e25196c6a8d26d90a3ac91375731e3926103c517a13a0ba56")) = some
   [("Operation", "BLgdjSmUASh9veptJMEP9NLHvCWQpyB1RVXmYxiDGnoLeYDsCmZ"),
    ("Type", "Proposals"),
    ("Source", "tz1ZiJS5gAXD5nrBtUd2YW3BaELJAPou1fmH"),
    ("Period", "4"),
    ("Proposal #1", "PsCARTHAGazKbHtnKfLzQg3kms52kSRpgnDY982a9oYsSXRLQEb"),
    ("Proposal #2", "PsFLorenaUUuikDWvMDr6fGBRG8kt3e3D3fHoXK1j1BFRxeSH4i")]

-- Simple Proposals #5
#guard items (hex ("7ff40fcd58610a5e5576711e7ac5c7ad94344e36129b454142aed4955edde1ad05009a6090844356d9798996" ++
    "22d85ba1602740fcaa8400000005000000404596285c6871691e25196c6a8d26d90a3ac91375731e3926103c" ++
    "517a13a0ba563e5e3a606afab74a59ca09e333633e2770b6492c5e594455b71e9a2f0ea92afb")) = some
   [("Operation", "BLgdjSmUASh9veptJMEP9NLHvCWQpyB1RVXmYxiDGnoLeYDsCmZ"),
    ("Type", "Proposals"),
    ("Source", "tz1ZiJS5gAXD5nrBtUd2YW3BaELJAPou1fmH"),
    ("Period", "5"),
    ("Proposal #1", "PsFLorenaUUuikDWvMDr6fGBRG8kt3e3D3fHoXK1j1BFRxeSH4i"),
    ("Proposal #2", "PsCARTHAGazKbHtnKfLzQg3kms52kSRpgnDY982a9oYsSXRLQEb")]

-- Simple Proposals #6
#guard items (hex ("14bdd6a9ccd934f1b826beea6c40cd723493a7722dbc3b92f13438a6843eef6905009a6090844356d9798996" ++
    "22d85ba1602740fcaa8400000006000000403e5e3a606afab74a59ca09e333633e2770b6492c5e594455b71e" ++
    "9a2f0ea92afb4596285c6871691e25196c6a8d26d90a3ac91375731e3926103c517a13a0ba56")) = some
   [("Operation", "BKsR9hfpRh7Ajk2cir63njQ2xBSR4YS7jJwdsoQkvt3DvGjEdFw"),
    ("Type", "Proposals"),
    ("Source", "tz1ZiJS5gAXD5nrBtUd2YW3BaELJAPou1fmH"),
    ("Period", "6"),
    ("Proposal #1", "PsCARTHAGazKbHtnKfLzQg3kms52kSRpgnDY982a9oYsSXRLQEb"),
    ("Proposal #2", "PsFLorenaUUuikDWvMDr6fGBRG8kt3e3D3fHoXK1j1BFRxeSH4i")]

-- Simple Proposals #7
#guard items (hex ("14bdd6a9ccd934f1b826beea6c40cd723493a7722dbc3b92f13438a6843eef6905009a6090844356d9798996" ++
    "22d85ba1602740fcaa8400000007000000404596285c6871691e25196c6a8d26d90a3ac91375731e3926103c" ++
    "517a13a0ba563e5e3a606afab74a59ca09e333633e2770b6492c5e594455b71e9a2f0ea92afb")) = some
   [("Operation", "BKsR9hfpRh7Ajk2cir63njQ2xBSR4YS7jJwdsoQkvt3DvGjEdFw"),
    ("Type", "Proposals"),
    ("Source", "tz1ZiJS5gAXD5nrBtUd2YW3BaELJAPou1fmH"),
    ("Period", "7"),
    ("Proposal #1", "PsFLorenaUUuikDWvMDr6fGBRG8kt3e3D3fHoXK1j1BFRxeSH4i"),
    ("Proposal #2", "PsCARTHAGazKbHtnKfLzQg3kms52kSRpgnDY982a9oYsSXRLQEb")]

-- Simple Proposals #8
#guard items (hex ("96e0f6056003e94fb2553aafbf3f1410788b77bdb91a3433033b02fab848be4705009a6090844356d9798996" ++
    "22d85ba1602740fcaa8400000008000000403e5e3a606afab74a59ca09e333633e2770b6492c5e594455b71e" ++
    "9a2f0ea92afb4596285c6871691e25196c6a8d26d90a3ac91375731e3926103c517a13a0ba56")) = some
   [("Operation", "BLrjL9KuvUhs7sevZvsTzUJygwGy9wugi64RuoZJJu45fEVvrEz"),
    ("Type", "Proposals"),
    ("Source", "tz1ZiJS5gAXD5nrBtUd2YW3BaELJAPou1fmH"),
    ("Period", "8"),
    ("Proposal #1", "PsCARTHAGazKbHtnKfLzQg3kms52kSRpgnDY982a9oYsSXRLQEb"),
    ("Proposal #2", "PsFLorenaUUuikDWvMDr6fGBRG8kt3e3D3fHoXK1j1BFRxeSH4i")]

-- Simple Proposals #9
#guard items (hex ("96e0f6056003e94fb2553aafbf3f1410788b77bdb91a3433033b02fab848be4705009a6090844356d9798996" ++
    "22d85ba1602740fcaa8400000009000000404596285c6871691e25196c6a8d26d90a3ac91375731e3926103c" ++
    "517a13a0ba563e5e3a606afab74a59ca09e333633e2770b6492c5e594455b71e9a2f0ea92afb")) = some
   [("Operation", "BLrjL9KuvUhs7sevZvsTzUJygwGy9wugi64RuoZJJu45fEVvrEz"),
    ("Type", "Proposals"),
    ("Source", "tz1ZiJS5gAXD5nrBtUd2YW3BaELJAPou1fmH"),
    ("Period", "9"),
    ("Proposal #1", "PsFLorenaUUuikDWvMDr6fGBRG8kt3e3D3fHoXK1j1BFRxeSH4i"),
    ("Proposal #2", "PsCARTHAGazKbHtnKfLzQg3kms52kSRpgnDY982a9oYsSXRLQEb")]

/-! ### zemu/test-vectors/reveal.json -/

-- Simple Reveal #0
#guard items (hex ("11e444147d2b24118a683c5dcf23fcfe7a4547bbb78e5bf85edb4007499881a86b01011b2295c8d30e31f5d2" ++
    "31f26e551a63a81fd2b7f602c28a1dcc080001024be779908a4b3f78f457f75106748a75357717413010d2ad" ++
    "cf1c377c6fa39da0")) = some
   [("Operation", "BKrAMVc38UGFh29BgYg3BfYgEfHMYvDGSY7DYgS44QkBxDDWSu9"),
    ("Type", "Revelation"),
    ("Source", "tz28R5qucJUYPE3oo1gk2Qtd16EVXz9YKu8J"),
    ("Public Key", "sppk7Zt4j5hS3FQcyLzbKnyY2XmiMZ8zV8DPPEyrLvdWhpSn1drhNfi"),
    ("Fee", "0.000374"),
    ("Gas Limit", "1100"),
    ("Storage Limit", "0"),
    ("Counter", "476482")]

-- Simple Reveal #1
#guard items (hex ("27897c292180f701009237d75f1e775cef9c889e3f0aff29c6adcc77a7246bb76b009a6090844356d9798996" ++
    "22d85ba1602740fcaa84d209b8f50e0a64005ea2fdd9e74297ca55236a42f3426cc8bfa50314e2f1e56f66ff" ++
    "082b6284cc4e")) = some
   [("Operation", "BL1hFq97W6kwZVb6n1k8xbWz1RtnBKsDEuddzTvNmnorbpppVZH"),
    ("Type", "Revelation"),
    ("Source", "tz1ZiJS5gAXD5nrBtUd2YW3BaELJAPou1fmH"),
    ("Public Key", "edpkuMuJaxgsvpqk3J2gtA9EEEPzu8wjmuBUi1BvykuuYCCBs4jGUd"),
    ("Fee", "0.001234"),
    ("Gas Limit", "10"),
    ("Storage Limit", "100"),
    ("Counter", "244408")]

-- Simple Reveal #2
#guard items (hex ("27897c292180f701009237d75f1e775cef9c889e3f0aff29c6adcc77a7246bb76b02792d0b9d857f711e0399" ++
    "8bd0a2f219c053704baef602c58a1dcc08000202280242bd4885c6beb133bf21d63e24f8fca58c4a80612900" ++
    "2ffed27b15ac3227")) = some
   [("Operation", "BL1hFq97W6kwZVb6n1k8xbWz1RtnBKsDEuddzTvNmnorbpppVZH"),
    ("Type", "Revelation"),
    ("Source", "tz3XNmLgSyBTNH2mKWM71fCmLU5umMiBod3u"),
    ("Public Key", "p2pk64snMk6AwW8PsAu4GEsykk8J57Q7SDEb4rmXRntJEWN4SkS5pQX"),
    ("Fee", "0.000374"),
    ("Gas Limit", "1100"),
    ("Storage Limit", "0"),
    ("Counter", "476485")]

-- Simple Reveal #3
#guard items (hex ("27897c292180f701009237d75f1e775cef9c889e3f0aff29c6adcc77a7246bb76b01011b2295c8d30e31f5d2" ++
    "31f26e551a63a81fd2b7f602c58a1dcc080001024be779908a4b3f78f457f75106748a75357717413010d2ad" ++
    "cf1c377c6fa39da0")) = some
   [("Operation", "BL1hFq97W6kwZVb6n1k8xbWz1RtnBKsDEuddzTvNmnorbpppVZH"),
    ("Type", "Revelation"),
    ("Source", "tz28R5qucJUYPE3oo1gk2Qtd16EVXz9YKu8J"),
    ("Public Key", "sppk7Zt4j5hS3FQcyLzbKnyY2XmiMZ8zV8DPPEyrLvdWhpSn1drhNfi"),
    ("Fee", "0.000374"),
    ("Gas Limit", "1100"),
    ("Storage Limit", "0"),
    ("Counter", "476485")]

-- Simple Reveal #4
#guard items (hex ("27897c292180f701009237d75f1e775cef9c889e3f0aff29c6adcc77a7246bb76b02792d0b9d857f711e0399" ++
    "8bd0a2f219c053704baef602c78a1dcc08000202280242bd4885c6beb133bf21d63e24f8fca58c4a80612900" ++
    "2ffed27b15ac3227")) = some
   [("Operation", "BL1hFq97W6kwZVb6n1k8xbWz1RtnBKsDEuddzTvNmnorbpppVZH"),
    ("Type", "Revelation"),
    ("Source", "tz3XNmLgSyBTNH2mKWM71fCmLU5umMiBod3u"),
    ("Public Key", "p2pk64snMk6AwW8PsAu4GEsykk8J57Q7SDEb4rmXRntJEWN4SkS5pQX"),
    ("Fee", "0.000374"),
    ("Gas Limit", "1100"),
    ("Storage Limit", "0"),
    ("Counter", "476487")]

-- Simple Reveal #5
#guard items (hex ("27897c292180f701009237d75f1e775cef9c889e3f0aff29c6adcc77a7246bb76b009a6090844356d9798996" ++
    "22d85ba1602740fcaa84d209bcf50e0a64005ea2fdd9e74297ca55236a42f3426cc8bfa50314e2f1e56f66ff" ++
    "082b6284cc4e")) = some
   [("Operation", "BL1hFq97W6kwZVb6n1k8xbWz1RtnBKsDEuddzTvNmnorbpppVZH"),
    ("Type", "Revelation"),
    ("Source", "tz1ZiJS5gAXD5nrBtUd2YW3BaELJAPou1fmH"),
    ("Public Key", "edpkuMuJaxgsvpqk3J2gtA9EEEPzu8wjmuBUi1BvykuuYCCBs4jGUd"),
    ("Fee", "0.001234"),
    ("Gas Limit", "10"),
    ("Storage Limit", "100"),
    ("Counter", "244412")]

-- Simple Reveal #6
#guard items (hex ("27897c292180f701009237d75f1e775cef9c889e3f0aff29c6adcc77a7246bb76b01011b2295c8d30e31f5d2" ++
    "31f26e551a63a81fd2b7f602c88a1dcc080001024be779908a4b3f78f457f75106748a75357717413010d2ad" ++
    "cf1c377c6fa39da0")) = some
   [("Operation", "BL1hFq97W6kwZVb6n1k8xbWz1RtnBKsDEuddzTvNmnorbpppVZH"),
    ("Type", "Revelation"),
    ("Source", "tz28R5qucJUYPE3oo1gk2Qtd16EVXz9YKu8J"),
    ("Public Key", "sppk7Zt4j5hS3FQcyLzbKnyY2XmiMZ8zV8DPPEyrLvdWhpSn1drhNfi"),
    ("Fee", "0.000374"),
    ("Gas Limit", "1100"),
    ("Storage Limit", "0"),
    ("Counter", "476488")]

-- Simple Reveal #7
#guard items (hex ("a987d3ae5a97e0536c088e60cde67da8edc852f618f2aafc4797e45577143e9e6b009a6090844356d9798996" ++
    "22d85ba1602740fcaa84d209bef50e0a64005ea2fdd9e74297ca55236a42f3426cc8bfa50314e2f1e56f66ff" ++
    "082b6284cc4e")) = some
   [("Operation", "BLzwmR2hQF7aws2HKHFaemQPeSvViU3LvChVYJbCjzrVfHmnMpw"),
    ("Type", "Revelation"),
    ("Source", "tz1ZiJS5gAXD5nrBtUd2YW3BaELJAPou1fmH"),
    ("Public Key", "edpkuMuJaxgsvpqk3J2gtA9EEEPzu8wjmuBUi1BvykuuYCCBs4jGUd"),
    ("Fee", "0.001234"),
    ("Gas Limit", "10"),
    ("Storage Limit", "100"),
    ("Counter", "244414")]

-- Simple Reveal #8
#guard items (hex ("9790d416c2d3f311a859799799ff79eed74e3db6e27733378bab4bdd9dc370e96b02792d0b9d857f711e0399" ++
    "8bd0a2f219c053704baef602cb8a1dcc08000202280242bd4885c6beb133bf21d63e24f8fca58c4a80612900" ++
    "2ffed27b15ac3227")) = some
   [("Operation", "BLs2svvwf1yQbcVcNAzum6gpkbmy23PYemFevgzZWhwYzse8TwS"),
    ("Type", "Revelation"),
    ("Source", "tz3XNmLgSyBTNH2mKWM71fCmLU5umMiBod3u"),
    ("Public Key", "p2pk64snMk6AwW8PsAu4GEsykk8J57Q7SDEb4rmXRntJEWN4SkS5pQX"),
    ("Fee", "0.000374"),
    ("Gas Limit", "1100"),
    ("Storage Limit", "0"),
    ("Counter", "476491")]

-- Simple Reveal #9
#guard items (hex ("9790d416c2d3f311a859799799ff79eed74e3db6e27733378bab4bdd9dc370e96b01011b2295c8d30e31f5d2" ++
    "31f26e551a63a81fd2b7f602cb8a1dcc080001024be779908a4b3f78f457f75106748a75357717413010d2ad" ++
    "cf1c377c6fa39da0")) = some
   [("Operation", "BLs2svvwf1yQbcVcNAzum6gpkbmy23PYemFevgzZWhwYzse8TwS"),
    ("Type", "Revelation"),
    ("Source", "tz28R5qucJUYPE3oo1gk2Qtd16EVXz9YKu8J"),
    ("Public Key", "sppk7Zt4j5hS3FQcyLzbKnyY2XmiMZ8zV8DPPEyrLvdWhpSn1drhNfi"),
    ("Fee", "0.000374"),
    ("Gas Limit", "1100"),
    ("Storage Limit", "0"),
    ("Counter", "476491")]

end Tezos.Conformance
